import Verif.Model.Ewald
import Verif.Spec.Ewald
import Mathlib.Analysis.SpecialFunctions.ExpDeriv
import Mathlib.Analysis.SpecialFunctions.Trigonometric.Deriv
import Mathlib.Analysis.Calculus.Deriv.Prod
import Mathlib.Analysis.Calculus.Deriv.Inv
import Mathlib.Tactic.FieldSimp
import Mathlib.Tactic.LinearCombination

/-!
# Lemmas on the Ewald sum
-/

namespace Verif.Ewald
open Real

/-- A quantity that grows by `c x` in every step of a loop. -/
theorem fold_meas {σ α : Type} (L : σ → ℝ) (step : σ → α → σ) (c : α → ℝ) (l : List α)
    (h : ∀ s, ∀ x ∈ l, L (step s x) = L s + c x) (s : σ) : L (l.foldl step s) = L s + (l.map c).sum := by
  induction l generalizing s with
  | nil => simp
  | cons a l ih =>
    rw [List.foldl_cons, ih (fun s x hx => h s x (List.mem_cons_of_mem _ hx)), h s a List.mem_cons_self]
    simp [add_assoc]

theorem hasDerivAt_listSum {α : Type} (l : List α) (F : α → ℝ → ℝ) (F' : α → ℝ) (τ : ℝ)
    (h : ∀ x ∈ l, HasDerivAt (F x) (F' x) τ) :
    HasDerivAt (fun σ => (l.map fun x => F x σ).sum) (l.map F').sum τ := by
  induction l with
  | nil => simpa using hasDerivAt_const τ (0 : ℝ)
  | cons a l ih =>
    simp only [List.map_cons, List.sum_cons]
    exact (h a List.mem_cons_self).add (ih fun x hx => h x (List.mem_cons_of_mem _ hx))

theorem listSum_neg {α : Type} (l : List α) (F : α → ℝ) : (l.map fun x => -F x).sum = -(l.map F).sum := by
  induction l with
  | nil => simp
  | cons a l ih => simp only [List.map_cons, List.sum_cons, ih]; ring

theorem listSum_lin {α : Type} (l : List α) (F G : α → ℝ) (a : ℝ) :
    (l.map fun x => a * F x - G x).sum = a * (l.map F).sum - (l.map G).sum := by
  induction l with
  | nil => simp
  | cons b l ih => simp only [List.map_cons, List.sum_cons, ih]; ring

theorem hasDerivAt_dot {a b : ℝ → V} {a' b' : V} {τ : ℝ} (ha : HasDerivAt a a' τ) (hb : HasDerivAt b b' τ) :
    HasDerivAt (fun σ => a σ ⬝ᵥ b σ) (a' ⬝ᵥ b τ + a τ ⬝ᵥ b') τ := by
  simp only [dotProduct]
  rw [← Finset.sum_add_distrib]
  exact HasDerivAt.fun_sum fun i _ => (hasDerivAt_pi.1 ha i).mul (hasDerivAt_pi.1 hb i)

/-- Work of the forces along the velocities. -/
def work (n : ℕ) (w f : ℕ → V) : ℝ := ∑ k ∈ Finset.range n, f k ⬝ᵥ w k

theorem work_addRows (n : ℕ) (w f : ℕ → V) (a : ℕ) (v : V) (ha : a < n) :
    work n w (addRows f a v) = work n w f + v ⬝ᵥ w a := by
  unfold work addRows
  have : ∀ k, (if k = a then f k + v else f k) ⬝ᵥ w k = f k ⬝ᵥ w k + if k = a then v ⬝ᵥ w a else 0 := by
    intro k
    by_cases h : k = a
    · subst h; simp [add_dotProduct]
    · simp [h]
  simp only [this, Finset.sum_add_distrib]
  rw [Finset.sum_ite_eq' (Finset.range n) a, if_pos (Finset.mem_range.2 ha)]

theorem work_pair (n : ℕ) (w f : ℕ → V) (a b : ℕ) (v : V) (ha : a < n) (hb : b < n) :
    work n w (addRows (addRows f a v) b (-v)) = work n w f - v ⬝ᵥ (w b - w a) := by
  rw [work_addRows n w _ b _ hb, work_addRows n w _ a _ ha, neg_dotProduct, dotProduct_sub]
  ring

/-- The sum over all pairs `atom2 < atom1`. -/
def pairSum (n : ℕ) (c : ℕ → ℕ → ℝ) : ℝ := ((List.range n).map fun a => ((List.range a).map (c a)).sum).sum

theorem fold_pairs {σ : Type} (L : σ → ℝ) (step : ℕ → σ → ℕ → σ) (c : ℕ → ℕ → ℝ) (n : ℕ)
    (h : ∀ s, ∀ a < n, ∀ b < a, L (step a s b) = L s + c a b) (s : σ) :
    L ((List.range n).foldl (fun s a => (List.range a).foldl (step a) s) s) = L s + pairSum n c := by
  refine fold_meas L _ _ _ (fun s a ha => ?_) s
  exact fold_meas L _ _ _ (fun s b hb => h s a (List.mem_range.1 ha) b (List.mem_range.1 hb)) s

theorem pairSum_congr (n : ℕ) (c d : ℕ → ℕ → ℝ) (h : ∀ a < n, ∀ b < a, c a b = d a b) : pairSum n c = pairSum n d := by
  unfold pairSum
  refine congrArg List.sum (List.map_congr_left fun a ha => congrArg List.sum (List.map_congr_left fun b hb => ?_))
  exact h a (List.mem_range.1 ha) b (List.mem_range.1 hb)

theorem pairSum_mul (n : ℕ) (c : ℕ → ℕ → ℝ) (k : ℝ) : pairSum n (fun a b => k * c a b) = k * pairSum n c := by
  unfold pairSum
  simp only [List.sum_map_mul_left]

theorem hasDerivAt_pairSum (n : ℕ) (F : ℕ → ℕ → ℝ → ℝ) (F' : ℕ → ℕ → ℝ) (τ : ℝ)
    (h : ∀ a < n, ∀ b < a, HasDerivAt (F a b) (F' a b) τ) :
    HasDerivAt (fun σ => pairSum n fun a b => F a b σ) (pairSum n F') τ := by
  unfold pairSum
  refine hasDerivAt_listSum _ (fun a σ => ((List.range a).map fun b => F a b σ).sum) _ τ fun a ha => ?_
  exact hasDerivAt_listSum _ _ _ τ fun b hb => h a (List.mem_range.1 ha) b (List.mem_range.1 hb)

theorem chargeProd_eq (q : ℕ → ℝ) (a b : ℕ) : chargeProd q a b = q a * q b := by
  unfold chargeProd
  split_ifs
  · rfl
  · ring

theorem trace_eq (n : ℕ) (q : ℕ → ℝ) : trace n (chargeProd q) = ∑ i ∈ Finset.range n, q i ^ 2 := by
  unfold trace
  rw [fold_meas (fun s : ℝ => s) _ (fun a => chargeProd q a a) _ (fun _ _ _ => rfl)]
  rw [zero_add, ← List.sum_toFinset _ List.nodup_range]
  refine Finset.sum_congr (by ext; simp) fun i _ => ?_
  rw [chargeProd_eq]; ring

theorem eg2_eq (n : ℕ) (q : ℕ → ℕ → ℝ) (pos : ℕ → V) (g : V) :
    eg2 n q pos g = pairSum n fun a b => q a b * cos (g ⬝ᵥ diffArray pos a b) := by
  unfold eg2
  rw [fold_pairs (fun s : ℝ => s) (fun a s b => s + q a b * cos (g ⬝ᵥ diffArray pos a b))
    (fun a b => q a b * cos (g ⬝ᵥ diffArray pos a b)) n (fun _ _ _ _ _ => rfl), zero_add]

theorem pairF_fst (n : ℕ) (q : ℕ → ℕ → ℝ) (pos : ℕ → V) (g : V) : (pairF n q pos g).1 = eg2 n q pos g := by
  rw [eg2_eq]
  have := fold_pairs (fun s : ℝ × (ℕ → V) => s.1) (fun atom1 (s : ℝ × (ℕ → V)) atom2 =>
      let gr := g ⬝ᵥ diffArray pos atom1 atom2
      let tmp : V := (-2.0 * q atom1 atom2 * sin gr) • g
      (s.1 + q atom1 atom2 * cos gr, addRows (addRows s.2 atom1 tmp) atom2 (-tmp)))
    (fun a b => q a b * cos (g ⬝ᵥ diffArray pos a b)) n (fun _ _ _ _ _ => rfl) (0, fun _ => 0)
  exact this.trans (zero_add _)

theorem pairF_work (n : ℕ) (q : ℕ → ℕ → ℝ) (pos : ℕ → V) (g : V) (w : ℕ → V) :
    work n w (pairF n q pos g).2 =
      pairSum n fun a b => 2 * (q a b * sin (g ⬝ᵥ diffArray pos a b) * (g ⬝ᵥ (w b - w a))) := by
  have := fold_pairs (fun s : ℝ × (ℕ → V) => work n w s.2) (fun atom1 (s : ℝ × (ℕ → V)) atom2 =>
      let gr := g ⬝ᵥ diffArray pos atom1 atom2
      let tmp : V := (-2.0 * q atom1 atom2 * sin gr) • g
      (s.1 + q atom1 atom2 * cos gr, addRows (addRows s.2 atom1 tmp) atom2 (-tmp)))
    (fun a b => 2 * (q a b * sin (g ⬝ᵥ diffArray pos a b) * (g ⬝ᵥ (w b - w a)))) n
    (fun s a ha b hb => by
      dsimp only
      rw [work_pair n w s.2 a b _ ha (by omega), smul_dotProduct, smul_eq_mul]
      norm_num
      ring) (0, fun _ => 0)
  refine this.trans ?_
  simp [work]

theorem structure_factor (n : ℕ) (q : ℕ → ℝ) (x : ℕ → V) (g : V) :
    2 * (pairSum n fun a b => chargeProd q a b * cos (g ⬝ᵥ diffArray x a b)) + trace n (chargeProd q) =
      (∑ i ∈ Finset.range n, q i * cos (g ⬝ᵥ x i)) ^ 2 + (∑ i ∈ Finset.range n, q i * sin (g ⬝ᵥ x i)) ^ 2 := by
  rw [trace_eq]
  induction n with
  | zero => simp [pairSum]
  | succ n ih =>
    have e : pairSum (n + 1) (fun a b => chargeProd q a b * cos (g ⬝ᵥ diffArray x a b)) =
        pairSum n (fun a b => chargeProd q a b * cos (g ⬝ᵥ diffArray x a b)) +
          (q n * cos (g ⬝ᵥ x n) * ∑ i ∈ Finset.range n, q i * cos (g ⬝ᵥ x i) +
           q n * sin (g ⬝ᵥ x n) * ∑ i ∈ Finset.range n, q i * sin (g ⬝ᵥ x i)) := by
      unfold pairSum
      rw [List.range_succ, List.map_append, List.sum_append, List.map_singleton, List.sum_singleton,
        Finset.mul_sum, Finset.mul_sum, ← Finset.sum_add_distrib]
      have hs : (List.range n).toFinset = Finset.range n := by ext; simp
      refine congrArg₂ (· + ·) rfl ?_
      rw [← List.sum_toFinset _ List.nodup_range, hs]
      refine Finset.sum_congr rfl fun i _ => ?_
      have : g ⬝ᵥ diffArray x n i = g ⬝ᵥ x i - g ⬝ᵥ x n := by
        rw [← dotProduct_sub]; rfl
      dsimp only
      rw [this, cos_sub, chargeProd_eq]
      ring
    rw [e, Finset.sum_range_succ, Finset.sum_range_succ, Finset.sum_range_succ]
    linear_combination ih + q n ^ 2 * (sin_sq_add_cos_sq (g ⬝ᵥ x n)).symm

/-- The factor of a reciprocal vector along a curve. -/
theorem hasDerivAt_gcoeff (eta : ℝ) (heta : 0 < eta) {g : ℝ → V} {g' : V} {τ : ℝ} (hg : HasDerivAt g g' τ)
    (h0 : g τ ⬝ᵥ g τ ≠ 0) :
    HasDerivAt (fun σ => gcoeff eta (g σ)) (-(gcoeff eta (g τ) * (2 * (1 / (4 * eta) + 1 / (g τ ⬝ᵥ g τ))) *
      (g τ ⬝ᵥ g'))) τ := by
  have hd := hasDerivAt_dot hg hg
  have h1 := ((hd.neg.div_const (4 * eta)).exp).div hd h0
  refine h1.congr_deriv ?_
  unfold gcoeff
  rw [dotProduct_comm g' (g τ)]
  have := heta.ne'
  simp only [Pi.neg_apply]
  field_simp
  ring

/-- One term of the sum over images along a curve. -/
theorem hasDerivAt_pair (erfc : ℝ → ℝ) (herfc : ∀ x, HasDerivAt erfc (-(2 / √π) * exp (-x ^ 2)) x) (eta : ℝ)
    (heta : 0 < eta) (q : ℝ) {d : ℝ → V} {d' : V} {τ : ℝ} (hd : HasDerivAt d d' τ) (h0 : d τ ≠ 0) :
    let l := Verif.Spec.Ewald.length (d τ)
    HasDerivAt (fun σ => q * erfc (√eta * Verif.Spec.Ewald.length (d σ)) / Verif.Spec.Ewald.length (d σ))
      (((erfc (√eta * l) / l + 2 * √eta * exp (-eta * l * l) / √π) * (-q / l)) / l * (d τ ⬝ᵥ d')) τ := by
  intro l
  have hp : 0 < d τ ⬝ᵥ d τ := by
    rcases lt_or_eq_of_le (show 0 ≤ d τ ⬝ᵥ d τ from Finset.sum_nonneg fun i _ => mul_self_nonneg _) with h | h
    · exact h
    · exact absurd (dotProduct_self_eq_zero.1 h.symm) h0
  have hl : 0 < l := sqrt_pos.2 hp
  have hll : l * l = d τ ⬝ᵥ d τ := mul_self_sqrt hp.le
  have h1 : HasDerivAt (fun σ => Verif.Spec.Ewald.length (d σ)) ((d τ ⬝ᵥ d') / l) τ := by
    refine ((hasDerivAt_dot hd hd).sqrt hp.ne').congr_deriv ?_
    rw [dotProduct_comm d' (d τ)]
    show (d τ ⬝ᵥ d' + d τ ⬝ᵥ d') / (2 * l) = _
    field_simp
    ring
  have h2 := (((herfc (√eta * l)).comp τ (h1.const_mul (√eta))).const_mul q).div h1 hl.ne'
  refine h2.congr_deriv ?_
  have e1 : -(√eta * l) ^ 2 = -eta * l * l := by
    have := mul_self_sqrt heta.le
    linear_combination -(l * l) * this
  rw [e1]
  show (q * (-(2 / √π) * exp (-eta * l * l) * (√eta * ((d τ ⬝ᵥ d') / l))) * l - q * erfc (√eta * l) * ((d τ ⬝ᵥ d') / l)) /
    l ^ 2 = _
  have : √π ≠ 0 := (sqrt_pos.2 pi_pos).ne'
  field_simp
  ring

end Verif.Ewald
