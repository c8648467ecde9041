import Verif.Lemmas.Ewald
import Mathlib.MeasureTheory.Integral.IntervalIntegral.FundThmCalculus
import Mathlib.Data.Fin.VecNotation

/-!
# C131: the Ewald sum

`Spec/Ewald.lean` gives the energy of textbooks.  The parameter `erfc` is any function with the derivative of the
complementary error function.
-/

namespace Verif.Ewald
open Real Verif.Spec.Ewald

/-- The neighbour arrays of the images `(i, j, T)`: vector from atom `i` to the image of atom `j`, and its length. -/
noncomputable def neighbours (x : ℕ → V) (imgs : List (ℕ × ℕ × V)) : List Nb :=
  imgs.map fun p => ⟨p.1, p.2.1, length (x p.2.1 + p.2.2 - x p.1), x p.2.1 + p.2.2 - x p.1⟩

theorem realspace_eq (erfc : ℝ → ℝ) (eta : ℝ) (q : ℕ → ℝ) (x : ℕ → V) (imgs : List (ℕ × ℕ × V)) :
    realspace erfc eta (chargeProd q) (neighbours x imgs) = correction * Verif.Spec.Ewald.real erfc eta q x imgs := by
  unfold realspace Verif.Spec.Ewald.real
  rw [fold_meas (fun s : ℝ => s) _ (fun p : Nb => chargeProd q p.atom1 p.atom2 * erfc (√eta * p.dis) / p.dis) _
    (fun _ _ _ => rfl), neighbours, List.map_map]
  simp only [Function.comp_def, chargeProd_eq, zero_add]
  norm_num
  ring

theorem realspaceF_e (erfc : ℝ → ℝ) (eta : ℝ) (q : ℕ → ℕ → ℝ) (nbs : List Nb) :
    (realspaceF erfc eta q nbs).e = realspace erfc eta q nbs := by
  show 0.5 * correction * (nbs.foldl (realStep erfc eta q) Acc.zero).e = _
  unfold realspace
  rw [fold_meas (fun s : ℝ => s) _ (fun p : Nb => q p.atom1 p.atom2 * erfc (√eta * p.dis) / p.dis) _ (fun _ _ _ => rfl),
    fold_meas Acc.e (realStep erfc eta q) (fun p : Nb => q p.atom1 p.atom2 * erfc (√eta * p.dis) / p.dis) _
      (fun s p _ => by show s.e + _ = _; rw [mul_div_assoc])]
  rfl

theorem reciprocal_eq (eta : ℝ) (n : ℕ) (q : ℕ → ℝ) (x : ℕ → V) (gs : List V) (vol : ℝ) :
    reciprocal eta n (chargeProd q) gs x vol = correction * recip eta n q x gs vol := by
  unfold reciprocal recip
  rw [fold_meas (fun s : ℝ => s) _ (fun g : V => gcoeff eta g *
    ((∑ i ∈ Finset.range n, q i * cos (g ⬝ᵥ x i)) ^ 2 + (∑ i ∈ Finset.range n, q i * sin (g ⬝ᵥ x i)) ^ 2)) _
    (fun s g _ => by rw [← structure_factor, eg2_eq]; ring)]
  rw [zero_add]
  unfold gcoeff
  ring

theorem reciprocalF_e (eta : ℝ) (n : ℕ) (q : ℕ → ℕ → ℝ) (x : ℕ → V) (gs : List V) (vol : ℝ) :
    (reciprocalF eta n q gs x vol).e = reciprocal eta n q gs x vol := by
  show 2 * π * correction / vol * (gs.foldl (recStep eta n q x) Acc.zero).e = _
  unfold reciprocal
  rw [fold_meas (fun s : ℝ => s) _ (fun g : V => (eg2 n q x g + eg2 n q x g + trace n q) * gcoeff eta g) _
      (fun _ _ _ => rfl),
    fold_meas Acc.e (recStep eta n q x) (fun g : V => (eg2 n q x g + eg2 n q x g + trace n q) * gcoeff eta g) _
      (fun s g _ => by show s.e + _ = _; rw [pairF_fst])]
  show 2 * π * correction / vol * (0 + _) = _
  ring

/-- **C131 (energy).**  With and without forces the energy is the Ewald energy of textbooks. -/
theorem C131_energy (erfc : ℝ → ℝ) (eta : ℝ) (n : ℕ) (q : ℕ → ℝ) (x : ℕ → V) (imgs : List (ℕ × ℕ × V)) (gs : List V)
    (vol : ℝ) (force : Bool) :
    (ewald erfc n (neighbours x imgs) gs x q vol eta force).eall = energy correction erfc eta n q x imgs gs vol := by
  have hs : selfEnergy eta n (chargeProd q) = correction * (-(√(eta / π) * ∑ i ∈ Finset.range n, q i ^ 2)) := by
    unfold selfEnergy
    rw [trace_eq]
    ring
  cases force
  · show realspace _ _ _ _ + reciprocal _ _ _ _ _ _ + selfEnergy _ _ _ = _
    rw [realspace_eq, reciprocal_eq, hs, energy]
    ring
  · show (realspaceF _ _ _ _).e + (reciprocalF _ _ _ _ _ _).e + selfEnergy _ _ _ = _
    rw [realspaceF_e, reciprocalF_e, realspace_eq, reciprocal_eq, hs, energy]
    ring

/-- The force of one image on the first atom. -/
noncomputable def imgForce (erfc : ℝ → ℝ) (eta : ℝ) (q : ℕ → ℕ → ℝ) (p : Nb) : V :=
  ((erfc (√eta * p.dis) / p.dis + 2 * √eta * exp (-eta * p.dis * p.dis) / √π) * (-q p.atom1 p.atom2 / p.dis)) •
    fun i => p.diff i / p.dis

theorem realF_work (erfc : ℝ → ℝ) (eta : ℝ) (n : ℕ) (q : ℕ → ℕ → ℝ) (nbs : List Nb) (w : ℕ → V)
    (h : ∀ p ∈ nbs, p.atom1 < n ∧ p.atom2 < n) :
    work n w (realspaceF erfc eta q nbs).f = 0.5 * correction *
      -(nbs.map fun p => imgForce erfc eta q p ⬝ᵥ (w p.atom2 - w p.atom1)).sum := by
  have key := fold_meas (fun a : Acc => work n w a.f) (realStep erfc eta q)
    (fun p => -(imgForce erfc eta q p ⬝ᵥ (w p.atom2 - w p.atom1))) nbs
    (fun s p hp => (work_pair n w s.f p.atom1 p.atom2 (imgForce erfc eta q p) (h p hp).1 (h p hp).2).trans
      (sub_eq_add_neg _ _)) Acc.zero
  have hz : work n w Acc.zero.f = 0 := by simp [work, Acc.zero]
  have hsc : work n w (realspaceF erfc eta q nbs).f =
      0.5 * correction * work n w (nbs.foldl (realStep erfc eta q) Acc.zero).f := by
    unfold work
    rw [Finset.mul_sum]
    exact Finset.sum_congr rfl fun k _ => smul_dotProduct _ _ _
  rw [hsc, key, hz, zero_add, listSum_neg]

theorem recF_work (eta : ℝ) (n : ℕ) (q : ℕ → ℕ → ℝ) (x : ℕ → V) (gs : List V) (vol : ℝ) (w : ℕ → V) :
    work n w (reciprocalF eta n q gs x vol).f = 2 * π * correction / vol *
      (gs.map fun g => gcoeff eta g *
        pairSum n fun a b => 2 * (q a b * sin (g ⬝ᵥ diffArray x a b) * (g ⬝ᵥ (w b - w a)))).sum := by
  have key := fold_meas (fun a : Acc => work n w a.f) (recStep eta n q x)
    (fun g => gcoeff eta g * pairSum n fun a b => 2 * (q a b * sin (g ⬝ᵥ diffArray x a b) * (g ⬝ᵥ (w b - w a)))) gs
    (fun s g _ => by
      rw [← pairF_work]
      show work n w (fun k => s.f k + gcoeff eta g • (pairF n q x g).2 k) = _
      unfold work
      rw [Finset.mul_sum, ← Finset.sum_add_distrib]
      exact Finset.sum_congr rfl fun k _ => by rw [add_dotProduct, smul_dotProduct, smul_eq_mul]) Acc.zero
  have hz : work n w Acc.zero.f = 0 := by simp [work, Acc.zero]
  have hsc : work n w (reciprocalF eta n q gs x vol).f =
      2 * π * correction / vol * work n w (gs.foldl (recStep eta n q x) Acc.zero).f := by
    unfold work
    rw [Finset.mul_sum]
    exact Finset.sum_congr rfl fun k _ => smul_dotProduct _ _ _
  rw [hsc, key, hz, zero_add]

/-- The sum over images along a curve of positions and shifts. -/
theorem real_deriv (erfc : ℝ → ℝ) (herfc : ∀ x, HasDerivAt erfc (-(2 / √π) * exp (-x ^ 2)) x) (eta : ℝ)
    (heta : 0 < eta) (q : ℕ → ℝ) (x : ℝ → ℕ → V) (v : ℕ → V) (τ : ℝ) (hx : ∀ i, HasDerivAt (fun σ => x σ i) (v i) τ)
    (imgs : List (ℕ × ℕ × (ℝ → V))) (u : ℕ × ℕ × (ℝ → V) → V) (hu : ∀ p ∈ imgs, HasDerivAt p.2.2 (u p) τ)
    (h0 : ∀ p ∈ imgs, x τ p.2.1 + p.2.2 τ ≠ x τ p.1) :
    HasDerivAt (fun σ => Verif.Spec.Ewald.real erfc eta q (x σ) (imgs.map fun p => (p.1, p.2.1, p.2.2 σ)))
      (1 / 2 * (imgs.map fun p => imgForce erfc eta (chargeProd q) ⟨p.1, p.2.1,
        length (x τ p.2.1 + p.2.2 τ - x τ p.1), x τ p.2.1 + p.2.2 τ - x τ p.1⟩ ⬝ᵥ (v p.2.1 + u p - v p.1)).sum) τ := by
  unfold Verif.Spec.Ewald.real
  simp only [List.map_map, Function.comp_def]
  refine (hasDerivAt_listSum imgs (fun p σ => q p.1 * q p.2.1 * erfc (√eta * length (x σ p.2.1 + p.2.2 σ - x σ p.1)) /
    length (x σ p.2.1 + p.2.2 σ - x σ p.1)) _ τ fun p hp => ?_).const_mul (1 / 2)
  have hd : HasDerivAt (fun σ => x σ p.2.1 + p.2.2 σ - x σ p.1) (v p.2.1 + u p - v p.1) τ :=
    ((hx p.2.1).add (hu p hp)).sub (hx p.1)
  refine (hasDerivAt_pair erfc herfc eta heta (q p.1 * q p.2.1) hd (sub_ne_zero.2 (h0 p hp))).congr_deriv ?_
  unfold imgForce
  dsimp only
  rw [smul_dotProduct, smul_eq_mul, chargeProd_eq]
  have : (fun i => (x τ p.2.1 + p.2.2 τ - x τ p.1) i / length (x τ p.2.1 + p.2.2 τ - x τ p.1)) ⬝ᵥ
      (v p.2.1 + u p - v p.1) = (1 / length (x τ p.2.1 + p.2.2 τ - x τ p.1)) *
        ((x τ p.2.1 + p.2.2 τ - x τ p.1) ⬝ᵥ (v p.2.1 + u p - v p.1)) := by
    rw [← smul_eq_mul, ← smul_dotProduct]
    congr 1
    funext i
    simp [div_eq_inv_mul]
  rw [this]
  ring

/-- The sum over reciprocal vectors along a curve. -/
theorem recip_deriv (eta : ℝ) (heta : 0 < eta) (n : ℕ) (q : ℕ → ℝ) (x : ℝ → ℕ → V) (v : ℕ → V) (τ : ℝ)
    (hx : ∀ i, HasDerivAt (fun σ => x σ i) (v i) τ) (gs : List (ℝ → V)) (w : (ℝ → V) → V)
    (hg : ∀ g ∈ gs, HasDerivAt g (w g) τ) (h0 : ∀ g ∈ gs, g τ ≠ 0) (vol : ℝ → ℝ) (vol' : ℝ)
    (hv : HasDerivAt vol vol' τ) (hv0 : vol τ ≠ 0) :
    HasDerivAt (fun σ => recip eta n q (x σ) (gs.map fun g => g σ) (vol σ))
      (-(2 * π * vol' / vol τ ^ 2) * (gs.map fun g => gcoeff eta (g τ) * (2 * eg2 n (chargeProd q) (x τ) (g τ) +
        trace n (chargeProd q))).sum + 2 * π / vol τ * (gs.map fun g =>
        -(gcoeff eta (g τ) * (2 * (1 / (4 * eta) + 1 / (g τ ⬝ᵥ g τ))) * (g τ ⬝ᵥ w g)) *
          (2 * eg2 n (chargeProd q) (x τ) (g τ) + trace n (chargeProd q)) + gcoeff eta (g τ) *
          (2 * pairSum n fun a b => chargeProd q a b * (-sin (g τ ⬝ᵥ diffArray (x τ) a b) *
            (w g ⬝ᵥ diffArray (x τ) a b + g τ ⬝ᵥ (v b - v a))))).sum) τ := by
  have e : (fun σ => recip eta n q (x σ) (gs.map fun g => g σ) (vol σ)) = fun σ => 2 * π / vol σ *
      (gs.map fun g => gcoeff eta (g σ) * (2 * (pairSum n fun a b => chargeProd q a b *
        cos (g σ ⬝ᵥ diffArray (x σ) a b)) + trace n (chargeProd q))).sum := by
    funext σ
    unfold recip
    simp only [structure_factor, List.map_map, Function.comp_def]
    rfl
  rw [e]
  have h1 : HasDerivAt (fun σ => 2 * π / vol σ) (-(2 * π * vol' / vol τ ^ 2)) τ := by
    refine ((hasDerivAt_const τ (2 * π)).div hv hv0).congr_deriv ?_
    ring
  have h2 := hasDerivAt_listSum gs (fun g σ => gcoeff eta (g σ) * (2 * (pairSum n fun a b => chargeProd q a b *
      cos (g σ ⬝ᵥ diffArray (x σ) a b)) + trace n (chargeProd q)))
    (fun g => -(gcoeff eta (g τ) * (2 * (1 / (4 * eta) + 1 / (g τ ⬝ᵥ g τ))) * (g τ ⬝ᵥ w g)) *
          (2 * eg2 n (chargeProd q) (x τ) (g τ) + trace n (chargeProd q)) + gcoeff eta (g τ) *
          (2 * pairSum n fun a b => chargeProd q a b * (-sin (g τ ⬝ᵥ diffArray (x τ) a b) *
            (w g ⬝ᵥ diffArray (x τ) a b + g τ ⬝ᵥ (v b - v a))))) τ (fun g hgm => by
      rw [eg2_eq]
      refine (hasDerivAt_gcoeff eta heta (hg g hgm) (fun h => h0 g hgm (dotProduct_self_eq_zero.1 h))).mul
        (((hasDerivAt_pairSum n _ _ τ fun a _ b _ => ?_).const_mul 2).add_const _)
      exact ((hasDerivAt_dot (hg g hgm) ((hx b).sub (hx a))).cos).const_mul _)
  refine (h1.mul h2).congr_deriv ?_
  simp only [eg2_eq]

/-- **C131 (forces).**  The forces are minus the gradient of the energy: along every differentiable motion of the
atoms the energy changes at minus the work of the forces. -/
theorem C131_force (erfc : ℝ → ℝ) (herfc : ∀ x, HasDerivAt erfc (-(2 / √π) * exp (-x ^ 2)) x) (eta : ℝ)
    (heta : 0 < eta) (n : ℕ) (q : ℕ → ℝ) (x : ℝ → ℕ → V) (v : ℕ → V) (τ : ℝ)
    (hx : ∀ i, HasDerivAt (fun σ => x σ i) (v i) τ) (imgs : List (ℕ × ℕ × V))
    (himgs : ∀ p ∈ imgs, p.1 < n ∧ p.2.1 < n ∧ x τ p.2.1 + p.2.2 ≠ x τ p.1) (gs : List V) (hgs : ∀ g ∈ gs, g ≠ 0)
    (vol : ℝ) (hvol : vol ≠ 0) :
    ∃ f, (ewald erfc n (neighbours (x τ) imgs) gs (x τ) q vol eta true).force = some f ∧
      HasDerivAt (fun σ => energy correction erfc eta n q (x σ) imgs gs vol) (-∑ i ∈ Finset.range n, f i ⬝ᵥ v i) τ := by
  refine ⟨_, rfl, ?_⟩
  have h1 := real_deriv erfc herfc eta heta q x v τ hx (imgs.map fun p => (p.1, p.2.1, fun _ => p.2.2)) (fun _ => 0)
    (fun p hp => by
      obtain ⟨p, -, rfl⟩ := List.mem_map.1 hp
      exact hasDerivAt_const _ _)
    (fun p hp => by
      obtain ⟨p, hp', rfl⟩ := List.mem_map.1 hp
      exact (himgs p hp').2.2)
  have h2 := recip_deriv eta heta n q x v τ hx (gs.map fun g _ => g) (fun _ => 0)
    (fun g hg => by
      obtain ⟨g, -, rfl⟩ := List.mem_map.1 hg
      exact hasDerivAt_const _ _)
    (fun g hg => by
      obtain ⟨g, hg', rfl⟩ := List.mem_map.1 hg
      exact hgs g hg') (fun _ => vol) 0 (hasDerivAt_const _ _) hvol
  simp only [List.map_map, Function.comp_def] at h1 h2
  have e1 : ∀ l : List (ℕ × ℕ × V), l.map (fun p => (p.1, p.2.1, p.2.2)) = l := fun l => by simp
  have e2 : ∀ l : List V, l.map (fun g => g) = l := fun l => by simp
  simp only [e1] at h1
  simp only [e2] at h2
  unfold energy
  refine (((h1.add h2).sub_const (√(eta / π) * ∑ i ∈ Finset.range n, q i ^ 2)).const_mul correction).congr_deriv ?_
  have w1 := realF_work erfc eta n (chargeProd q) (neighbours (x τ) imgs) v (fun p hp => by
    obtain ⟨p, hp', rfl⟩ := List.mem_map.1 hp
    exact ⟨(himgs p hp').1, (himgs p hp').2.1⟩)
  have w2 := recF_work eta n (chargeProd q) (x τ) gs vol v
  have w3 : ∑ i ∈ Finset.range n, ((realspaceF erfc eta (chargeProd q) (neighbours (x τ) imgs)).f i +
      (reciprocalF eta n (chargeProd q) gs (x τ) vol).f i) ⬝ᵥ v i =
      work n v (realspaceF erfc eta (chargeProd q) (neighbours (x τ) imgs)).f +
        work n v (reciprocalF eta n (chargeProd q) gs (x τ) vol).f := by
    rw [work, work, ← Finset.sum_add_distrib]
    exact Finset.sum_congr rfl fun i _ => add_dotProduct _ _ _
  rw [w3, w1, w2]
  simp only [neighbours, List.map_map, Function.comp_def, add_zero, dotProduct_zero, mul_zero, neg_zero, zero_mul,
    zero_dotProduct, zero_add, zero_div]
  have w4 : ∀ g : V, gcoeff eta g * (2 * pairSum n fun a b => chargeProd q a b *
      (-sin (g ⬝ᵥ diffArray (x τ) a b) * (g ⬝ᵥ (v b - v a)))) =
      -(gcoeff eta g * pairSum n fun a b => 2 * (chargeProd q a b * sin (g ⬝ᵥ diffArray (x τ) a b) *
        (g ⬝ᵥ (v b - v a)))) := by
    intro g
    have hA : (pairSum n fun a b => chargeProd q a b *
        (-sin (g ⬝ᵥ diffArray (x τ) a b) * (g ⬝ᵥ (v b - v a)))) =
        -(1 / 2) * pairSum n fun a b => 2 * (chargeProd q a b * sin (g ⬝ᵥ diffArray (x τ) a b) *
          (g ⬝ᵥ (v b - v a))) := by
      rw [← pairSum_mul]
      exact pairSum_congr n _ _ fun a _ b _ => by ring
    rw [hA]
    ring
  simp only [w4]
  rw [listSum_neg]
  norm_num
  ring

theorem virial_dforce (e : Fin 3 → Fin 3 → ℝ) (he : ∀ i j, e i j = e j i) (c : ℝ) (d : V) :
    virial (dforceToDstress (c • d) d) e = c * (d ⬝ᵥ strained e d) := by
  simp only [virial, dforceToDstress, strained, dotProduct, Fin.sum_univ_three, Pi.smul_apply, smul_eq_mul, he 1 0,
    he 2 0, he 2 1]
  ring

theorem virial_tensor (eta : ℝ) (e : Fin 3 → Fin 3 → ℝ) (he : ∀ i j, e i j = e j i) (g : V) :
    virial (tensorVec eta g) e =
      e 0 0 + e 1 1 + e 2 2 - 2 * (1 / (4 * eta) + 1 / (g ⬝ᵥ g)) * (g ⬝ᵥ strained e g) := by
  have h : g ⬝ᵥ strained e g = e 0 0 * g 0 ^ 2 + e 1 1 * g 1 ^ 2 + e 2 2 * g 2 ^ 2 +
      2 * (e 0 1 * g 0 * g 1 + e 1 2 * g 1 * g 2 + e 0 2 * g 0 * g 2) := by
    simp only [strained, dotProduct, Fin.sum_univ_three, he 1 0, he 2 0, he 2 1]
    ring
  rw [h]
  generalize hd : g ⬝ᵥ g = gg
  simp only [virial, tensorVec, hd]
  norm_num
  ring

theorem strained_sub (e : Fin 3 → Fin 3 → ℝ) (a b : V) : strained e a - strained e b = strained e (a - b) := by
  funext i
  simp only [strained, Fin.sum_univ_three, Pi.sub_apply]
  ring

theorem strained_add (e : Fin 3 → Fin 3 → ℝ) (a b : V) : strained e a + strained e b = strained e (a + b) := by
  funext i
  simp only [strained, Fin.sum_univ_three, Pi.add_apply]
  ring

theorem strained_symm (e : Fin 3 → Fin 3 → ℝ) (he : ∀ i j, e i j = e j i) (a b : V) :
    strained e a ⬝ᵥ b = a ⬝ᵥ strained e b := by
  simp only [strained, dotProduct, Fin.sum_univ_three, he 1 0, he 2 0, he 2 1]
  ring

theorem realF_stress (erfc : ℝ → ℝ) (eta : ℝ) (q : ℕ → ℕ → ℝ) (nbs : List Nb) (e : Fin 3 → Fin 3 → ℝ)
    (he : ∀ i j, e i j = e j i) :
    virial (realspaceF erfc eta q nbs).s e = 0.5 * correction *
      -(nbs.map fun p => imgForce erfc eta q p ⬝ᵥ strained e p.diff).sum := by
  have key := fold_meas (fun a : Acc => virial a.s e) (realStep erfc eta q)
    (fun p => -(imgForce erfc eta q p ⬝ᵥ strained e p.diff)) nbs
    (fun s p _ => by
      have h : ∃ c : ℝ, imgForce erfc eta q p = c • p.diff :=
        ⟨_, (by
          unfold imgForce
          rw [show (fun i => p.diff i / p.dis) = (1 / p.dis) • p.diff by funext i; simp [div_eq_inv_mul], smul_smul])⟩
      obtain ⟨c, hc⟩ := h
      show virial (s.s - dforceToDstress (imgForce erfc eta q p) p.diff) e = _
      rw [hc, smul_dotProduct, smul_eq_mul, ← virial_dforce e he]
      simp only [virial, Pi.sub_apply]
      ring) Acc.zero
  have hz : virial Acc.zero.s e = 0 := by simp [virial, Acc.zero]
  have hsc : virial (realspaceF erfc eta q nbs).s e =
      0.5 * correction * virial (nbs.foldl (realStep erfc eta q) Acc.zero).s e := by
    simp only [realspaceF, Acc.scale, virial, Pi.smul_apply, smul_eq_mul]
    ring
  rw [hsc, key, hz, zero_add, listSum_neg]

theorem recF_stress (eta : ℝ) (n : ℕ) (q : ℕ → ℕ → ℝ) (x : ℕ → V) (gs : List V) (vol : ℝ) (e : Fin 3 → Fin 3 → ℝ)
    (he : ∀ i j, e i j = e j i) :
    virial (reciprocalF eta n q gs x vol).s e = 2 * π * correction / vol *
      (gs.map fun g => (e 0 0 + e 1 1 + e 2 2) * (gcoeff eta g * (2 * eg2 n q x g + trace n q)) -
        gcoeff eta g * (2 * (1 / (4 * eta) + 1 / (g ⬝ᵥ g))) * (g ⬝ᵥ strained e g) *
          (2 * eg2 n q x g + trace n q)).sum := by
  have key := fold_meas (fun a : Acc => virial a.s e) (recStep eta n q x)
    (fun g => (e 0 0 + e 1 1 + e 2 2) * (gcoeff eta g * (2 * eg2 n q x g + trace n q)) -
        gcoeff eta g * (2 * (1 / (4 * eta) + 1 / (g ⬝ᵥ g))) * (g ⬝ᵥ strained e g) *
          (2 * eg2 n q x g + trace n q)) gs
    (fun s g _ => by
      show virial (s.s + (((pairF n q x g).1 + (pairF n q x g).1 + trace n q) * gcoeff eta g) • tensorVec eta g) e = _
      rw [pairF_fst]
      have ht := virial_tensor eta e he g
      have hl : ∀ (c : ℝ) (a b : Fin 6 → ℝ), virial (a + c • b) e = virial a e + c * virial b e := by
        intro c a b
        simp only [virial, Pi.add_apply, Pi.smul_apply, smul_eq_mul]
        ring
      rw [hl, ht]
      ring) Acc.zero
  have hz : virial Acc.zero.s e = 0 := by simp [virial, Acc.zero]
  have hsc : virial (reciprocalF eta n q gs x vol).s e =
      2 * π * correction / vol * virial (gs.foldl (recStep eta n q x) Acc.zero).s e := by
    simp only [reciprocalF, Acc.scale, virial, Pi.smul_apply, smul_eq_mul]
    ring
  rw [hsc, key, hz, zero_add]

/-- **C131 (stresses).**  The six stresses are minus the derivative of the energy with respect to strain: when the
cell is deformed by a symmetric strain rate `e`, positions and shifts move by `e`, reciprocal vectors by `-e` and the
volume by the trace of `e`, and the energy changes at minus the product of stresses and strain. -/
theorem C131_stress (erfc : ℝ → ℝ) (herfc : ∀ x, HasDerivAt erfc (-(2 / √π) * exp (-x ^ 2)) x) (eta : ℝ)
    (heta : 0 < eta) (n : ℕ) (q : ℕ → ℝ) (e : Fin 3 → Fin 3 → ℝ) (he : ∀ i j, e i j = e j i) (x : ℝ → ℕ → V) (τ : ℝ)
    (hx : ∀ i, HasDerivAt (fun σ => x σ i) (strained e (x τ i)) τ) (imgs : List (ℕ × ℕ × (ℝ → V)))
    (himgs : ∀ p ∈ imgs, HasDerivAt p.2.2 (strained e (p.2.2 τ)) τ ∧ x τ p.2.1 + p.2.2 τ ≠ x τ p.1)
    (gs : List (ℝ → V)) (hgs : ∀ g ∈ gs, HasDerivAt g (-strained e (g τ)) τ ∧ g τ ≠ 0) (vol : ℝ → ℝ)
    (hvol : HasDerivAt vol ((e 0 0 + e 1 1 + e 2 2) * vol τ) τ) (hvol0 : vol τ ≠ 0) :
    ∃ s, (ewald erfc n (neighbours (x τ) (imgs.map fun p => (p.1, p.2.1, p.2.2 τ))) (gs.map fun g => g τ) (x τ) q
        (vol τ) eta true).stress = some s ∧
      HasDerivAt (fun σ => energy correction erfc eta n q (x σ) (imgs.map fun p => (p.1, p.2.1, p.2.2 σ))
        (gs.map fun g => g σ) (vol σ)) (-virial s e) τ := by
  refine ⟨_, rfl, ?_⟩
  have h1 := real_deriv erfc herfc eta heta q x (fun i => strained e (x τ i)) τ hx imgs (fun p => strained e (p.2.2 τ))
    (fun p hp => (himgs p hp).1) (fun p hp => (himgs p hp).2)
  have h2 := recip_deriv eta heta n q x (fun i => strained e (x τ i)) τ hx gs (fun g => -strained e (g τ))
    (fun g hg => (hgs g hg).1) (fun g hg => (hgs g hg).2) vol _ hvol hvol0
  unfold energy
  refine (((h1.add h2).sub_const (√(eta / π) * ∑ i ∈ Finset.range n, q i ^ 2)).const_mul correction).congr_deriv ?_
  have hl : ∀ a b : Fin 6 → ℝ, virial (a + b) e = virial a e + virial b e := by
    intro a b
    simp only [virial, Pi.add_apply]
    ring
  have hph : ∀ (g : ℝ → V) (a b : ℕ), (-strained e (g τ)) ⬝ᵥ diffArray (x τ) a b +
      g τ ⬝ᵥ (strained e (x τ b) - strained e (x τ a)) = 0 := by
    intro g a b
    rw [neg_dotProduct, strained_symm e he, strained_sub]
    show -(g τ ⬝ᵥ strained e (x τ b - x τ a)) + _ = 0
    ring
  have hp0 : pairSum n (fun _ _ => 0) = 0 := by simp [pairSum]
  rw [hl, realF_stress erfc eta _ _ e he, recF_stress eta n _ _ _ _ e he]
  simp only [hph, mul_zero, hp0, add_zero]
  simp only [neighbours, List.map_map, Function.comp_def, strained_add, strained_sub, dotProduct_neg, listSum_lin]
  simp only [mul_neg, neg_neg]
  generalize (List.map (_ : _ → ℝ) imgs).sum = A
  generalize (List.map (fun g : ℝ → V => gcoeff eta (g τ) * (2 * eg2 n (chargeProd q) (x τ) (g τ) +
    trace n (chargeProd q))) gs).sum = B
  generalize (List.map (_ : _ → ℝ) gs).sum = D
  have h05 : (0.5 : ℝ) = 1 / 2 := by norm_num
  rw [h05]
  field_simp
  ring

/-- **C131 (total force).**  The forces of all atoms add up to zero. -/
theorem C131_total_force (erfc : ℝ → ℝ) (eta : ℝ) (n : ℕ) (q : ℕ → ℝ) (x : ℕ → V) (imgs : List (ℕ × ℕ × V))
    (himgs : ∀ p ∈ imgs, p.1 < n ∧ p.2.1 < n) (gs : List V) (vol : ℝ) :
    ∃ f, (ewald erfc n (neighbours x imgs) gs x q vol eta true).force = some f ∧ ∑ i ∈ Finset.range n, f i = 0 := by
  refine ⟨_, rfl, ?_⟩
  have key : ∀ w : V, (∑ i ∈ Finset.range n, ((realspaceF erfc eta (chargeProd q) (neighbours x imgs)).f i +
      (reciprocalF eta n (chargeProd q) gs x vol).f i)) ⬝ᵥ w = 0 := by
    intro w
    rw [sum_dotProduct]
    have w3 : ∑ i ∈ Finset.range n, ((realspaceF erfc eta (chargeProd q) (neighbours x imgs)).f i +
        (reciprocalF eta n (chargeProd q) gs x vol).f i) ⬝ᵥ w =
        work n (fun _ => w) (realspaceF erfc eta (chargeProd q) (neighbours x imgs)).f +
          work n (fun _ => w) (reciprocalF eta n (chargeProd q) gs x vol).f := by
      rw [work, work, ← Finset.sum_add_distrib]
      exact Finset.sum_congr rfl fun i _ => add_dotProduct _ _ _
    rw [w3, realF_work erfc eta n _ _ _ (fun p hp => by
      obtain ⟨p, hp', rfl⟩ := List.mem_map.1 hp
      exact himgs p hp'), recF_work]
    simp [pairSum]
  exact dotProduct_eq_zero _ key

/-- **C131 (sign).**  The sum over reciprocal vectors is not negative. -/
theorem C131_recip_nonneg (eta : ℝ) (n : ℕ) (q : ℕ → ℝ) (x : ℕ → V) (gs : List V) (vol : ℝ) (hvol : 0 < vol) :
    0 ≤ reciprocal eta n (chargeProd q) gs x vol := by
  rw [reciprocal_eq]
  have hc : 0 ≤ correction := by unfold correction; norm_num
  refine mul_nonneg hc (mul_nonneg (by positivity) (List.sum_nonneg fun r hr => ?_))
  obtain ⟨g, -, rfl⟩ := List.mem_map.1 hr
  have : 0 ≤ g ⬝ᵥ g := Finset.sum_nonneg fun i _ => mul_self_nonneg _
  positivity

/-- There is a function with the derivative of the complementary error function. -/
theorem exists_erfc : ∃ erfc : ℝ → ℝ, ∀ x, HasDerivAt erfc (-(2 / √π) * exp (-x ^ 2)) x := by
  refine ⟨fun x => 1 - 2 / √π * ∫ t in (0 : ℝ)..x, exp (-t ^ 2), fun x => ?_⟩
  have hc : Continuous fun t : ℝ => exp (-t ^ 2) := by fun_prop
  have h := ((hc.integral_hasStrictDerivAt 0 x).hasDerivAt.const_mul (2 / √π)).const_sub 1
  exact h.congr_deriv (by ring)

/-- Two ions, one moving along an axis, with the images of each other and one reciprocal vector. -/
example : ∃ erfc : ℝ → ℝ, ∃ f, (ewald erfc 2 (neighbours (fun i => ![(i : ℝ), 0, 0]) [(0, 1, 0), (1, 0, 0)]) [![1, 0, 0]]
      (fun i => ![(i : ℝ), 0, 0]) (fun i => if i = 0 then 1 else -1) 8 1 true).force = some f ∧
    HasDerivAt (fun σ => energy correction erfc 1 2 (fun i => if i = 0 then 1 else -1)
      (fun i => ![(i : ℝ) + (i : ℝ) * σ, 0, 0]) [(0, 1, 0), (1, 0, 0)] [![1, 0, 0]] 8)
      (-∑ i ∈ Finset.range 2, f i ⬝ᵥ ![(i : ℝ), 0, 0]) 0 := by
  obtain ⟨erfc, h⟩ := exists_erfc
  have := C131_force erfc h 1 one_pos 2 (fun i => if i = 0 then 1 else -1)
    (fun σ i => ![(i : ℝ) + (i : ℝ) * σ, 0, 0]) (fun i => ![(i : ℝ), 0, 0]) 0
    (fun i => hasDerivAt_pi.2 fun j => by
      fin_cases j
      · simpa using ((hasDerivAt_id (0 : ℝ)).const_mul (i : ℝ)).const_add (i : ℝ)
      · simpa using hasDerivAt_const (0 : ℝ) (0 : ℝ)
      · simpa using hasDerivAt_const (0 : ℝ) (0 : ℝ))
    [(0, 1, 0), (1, 0, 0)] (by simp) [![1, 0, 0]] (by simp) 8 (by norm_num)
  simp only [mul_zero, add_zero] at this
  exact ⟨erfc, this⟩

/-- The same ions with an image in the next cell, stretched along the first axis. -/
example : ∃ erfc : ℝ → ℝ, ∃ s, (ewald erfc 2 (neighbours (fun i => ![(i : ℝ), 0, 0]) [(0, 1, ![4, 0, 0])])
      [![1, 0, 0]] (fun i => ![(i : ℝ), 0, 0]) (fun i => if i = 0 then 1 else -1) 8 1 true).stress = some s ∧
    HasDerivAt (fun σ : ℝ => energy correction erfc 1 2 (fun i => if i = 0 then 1 else -1)
      (fun i => ![(i : ℝ) + (i : ℝ) * σ, 0, 0]) [(0, 1, ![4 + 4 * σ, 0, 0])] [![1 + -1 * σ, 0, 0]] (8 + 8 * σ))
      (-s 0) 0 := by
  obtain ⟨erfc, h⟩ := exists_erfc
  have line : ∀ a b : ℝ, HasDerivAt (fun σ : ℝ => (![a + b * σ, 0, 0] : V)) ![b, 0, 0] 0 := fun a b =>
    hasDerivAt_pi.2 fun j => by
      fin_cases j
      · simpa using ((hasDerivAt_id (0 : ℝ)).const_mul b).const_add a
      · simpa using hasDerivAt_const (0 : ℝ) (0 : ℝ)
      · simpa using hasDerivAt_const (0 : ℝ) (0 : ℝ)
  have hs : ∀ a : ℝ, strained ![![1, 0, 0], 0, 0] ![a, 0, 0] = ![a, 0, 0] := by
    intro a
    funext i
    fin_cases i <;> simp [strained, Fin.sum_univ_three]
  have := C131_stress erfc h 1 one_pos 2 (fun i => if i = 0 then 1 else -1) ![![1, 0, 0], 0, 0]
    (by intro i j; fin_cases i <;> fin_cases j <;> rfl) (fun σ i => ![(i : ℝ) + (i : ℝ) * σ, 0, 0]) 0
    (fun i => (line _ _).congr_deriv (by rw [mul_zero, add_zero, hs]))
    [(0, 1, fun σ => ![4 + 4 * σ, 0, 0])]
    (fun p hp => by
      obtain rfl := List.mem_singleton.1 hp
      refine ⟨(line 4 4).congr_deriv (by simp only [mul_zero, add_zero, hs]), fun h0 => ?_⟩
      have := congrFun h0 0
      norm_num at this)
    [fun σ => ![1 + -1 * σ, 0, 0]]
    (fun g hg => by
      obtain rfl := List.mem_singleton.1 hg
      refine ⟨(line 1 (-1)).congr_deriv (by simp only [mul_zero, add_zero, hs]; simp), fun h0 => ?_⟩
      have := congrFun h0 0
      norm_num at this)
    (fun σ => 8 + 8 * σ)
    ((((hasDerivAt_id (0 : ℝ)).const_mul 8).const_add 8).congr_deriv (by simp)) (by norm_num)
  obtain ⟨s, h1, h2⟩ := this
  simp only [mul_zero, add_zero, List.map_cons, List.map_nil] at h1
  exact ⟨erfc, s, h1, h2.congr_deriv (by simp [virial])⟩

end Verif.Ewald
