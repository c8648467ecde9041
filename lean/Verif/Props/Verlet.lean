import Verif.Model.Verlet
import Verif.Spec.Verlet
import Mathlib.Analysis.Calculus.Deriv.Mul
import Mathlib.Analysis.Calculus.Deriv.Pow
import Mathlib.Analysis.Calculus.Deriv.Add
import Mathlib.Tactic.FieldSimp
import Mathlib.Tactic.LinearCombination
import Mathlib.Logic.Function.Iterate
import Mathlib.Algebra.BigOperators.Field

/-!
# C132: molecular dynamics with the velocity Verlet algorithm

`F x` are the forces of the Hamiltonian at Cartesian positions `x`.
-/

namespace Verif.Verlet
open Verif Verif.Spec.Verlet

/-- Energy and forces of a Hamiltonian at Cartesian positions. -/
noncomputable def atCart {n : ℕ} (H : Ham n) (axis : Matrix (Fin 3) (Fin 3) ℝ) (x : Arr n) : ℝ × Arr n :=
  H axis fun a => axis⁻¹.mulVec (x a)

/-- An object after `initialize`: momenta `p`, fractional positions that belong to the Cartesian ones, and current energy
and forces. -/
structure Ready {n : ℕ} (H : Ham n) (s : Sim n) (p : Arr n) : Prop where
  det : s.axis.det ≠ 0
  cart : ∀ a, s.cart a = s.axis.mulVec (s.frac a)
  mom : s.p = some p
  ef : s.ef = some (H s.axis s.frac)

theorem Ready.frac {n : ℕ} {H : Ham n} {s : Sim n} {p : Arr n} (h : Ready H s p) (a : Fin n) :
    s.frac a = s.axis⁻¹.mulVec (s.cart a) := by
  rw [h.cart a, Matrix.mulVec_mulVec, Matrix.nonsing_inv_mul _ (isUnit_iff_ne_zero.2 h.det), Matrix.one_mulVec]

theorem Ready.at {n : ℕ} {H : Ham n} {s : Sim n} {p : Arr n} (h : Ready H s p) :
    H s.axis s.frac = atCart H s.axis s.cart := by
  unfold atCart
  rw [show s.frac = fun a => s.axis⁻¹.mulVec (s.cart a) from funext h.frac]

theorem iter_ok {n : ℕ} (H : Ham n) (dt : ℝ) (s : Sim n) (p : Arr n) (h : Ready H s p) :
    ∃ s', iter H dt (fun a => dt * (s.masses a)⁻¹) s = .ok s' ∧ s'.axis = s.axis ∧ s'.masses = s.masses ∧
      s'.save = s.save ∧
      let r := step (fun x => (atCart H s.axis x).2) s.masses constFToP dt (s.cart, p)
      s'.cart = r.1 ∧ Ready H s' r.2 ∧ s'.ef = some (atCart H s.axis r.1) ∧
      s'.hist = if s.save then s.hist ++ [atCart H s.axis r.1] else s.hist := by
  have hp : translateMomenta p (H s.axis s.frac).2 (0.5 * dt) =
      fun a i => p a i + constFToP * (dt / 2) * (atCart H s.axis s.cart).2 a i := by
    funext a i
    rw [h.at]
    simp only [translateMomenta]
    rw [show (0.5 : ℝ) = 1 / 2 by norm_num]
    ring
  have hx : translatePositions s.cart (translateMomenta p (H s.axis s.frac).2 (0.5 * dt))
      (fun a => dt * (s.masses a)⁻¹) =
      (step (fun x => (atCart H s.axis x).2) s.masses constFToP dt (s.cart, p)).1 := by
    funext a i
    rw [hp]
    simp only [translatePositions, step]
    ring
  unfold iter
  rw [h.mom, h.ef]
  refine ⟨_, rfl, rfl, rfl, rfl, ?_⟩
  dsimp only [Sim.eval, Sim.setX]
  rw [hx]
  refine ⟨rfl, ⟨h.det, ?_, ?_, rfl⟩, rfl, rfl⟩
  · intro a
    show _ = s.axis.mulVec (s.axis⁻¹.mulVec _)
    rw [Matrix.mulVec_mulVec, Matrix.mul_nonsing_inv _ (isUnit_iff_ne_zero.2 h.det), Matrix.one_mulVec]
  · refine congrArg some ?_
    rw [hp]
    funext a i
    simp only [translateMomenta, step]
    show _ + constFToP * (0.5 * dt) * (atCart H s.axis _).2 a i = _
    rw [show (0.5 : ℝ) = 1 / 2 by norm_num]
    ring

theorem loop_ok {n : ℕ} (H : Ham n) (dt : ℝ) (k : ℕ) (s : Sim n) (p : Arr n) (h : Ready H s p) :
    ∃ s' l, loop H dt (fun a => dt * (s.masses a)⁻¹) k s = .ok (s', l) ∧ s'.axis = s.axis ∧ s'.masses = s.masses ∧
      let st := step (fun x => (atCart H s.axis x).2) s.masses constFToP dt
      s'.cart = (st^[k] (s.cart, p)).1 ∧ Ready H s' (st^[k] (s.cart, p)).2 ∧
      l = (List.range k).map (fun j =>
        let e := (atCart H s.axis (st^[j + 1] (s.cart, p)).1).1
        let t := ke s.masses (st^[j + 1] (s.cart, p)).2
        (e, t, e + t)) ∧
      s'.hist = if s.save then s.hist ++ (List.range k).map (fun j => atCart H s.axis (st^[j + 1] (s.cart, p)).1)
        else s.hist := by
  induction k generalizing s p with
  | zero =>
    refine ⟨s, [], rfl, rfl, rfl, rfl, h, rfl, ?_⟩
    split <;> simp
  | succ k ih =>
    obtain ⟨s1, e1, ha, hm, hsv, hc, hr, hef, hh⟩ := iter_ok H dt s p h
    obtain ⟨s2, l, e2, ha2, hm2, hc2, hr2, hl2, hh2⟩ := ih s1 _ hr
    rw [hm] at e2 hm2
    rw [ha] at ha2
    simp only [ha, hm, hc, hsv] at hc2 hr2 hl2 hh2
    have eline : line s1 = .ok ((atCart H s.axis s1.cart).1,
        ke s.masses (step (fun x => (atCart H s.axis x).2) s.masses constFToP dt (s.cart, p)).2,
        (atCart H s.axis s1.cart).1 +
          ke s.masses (step (fun x => (atCart H s.axis x).2) s.masses constFToP dt (s.cart, p)).2) := by
      unfold line
      rw [hef, hr.mom, hm, hc]
      rfl
    refine ⟨s2, ((atCart H s.axis s1.cart).1,
        ke s.masses (step (fun x => (atCart H s.axis x).2) s.masses constFToP dt (s.cart, p)).2,
        (atCart H s.axis s1.cart).1 +
          ke s.masses (step (fun x => (atCart H s.axis x).2) s.masses constFToP dt (s.cart, p)).2) :: l, ?_, ha2, hm2,
      ?_⟩
    · show (do
        let s1 ← iter H dt (fun a => dt * (s.masses a)⁻¹) s
        let l ← line s1
        let r ← loop H dt (fun a => dt * (s.masses a)⁻¹) k s1
        return (r.1, l :: r.2)) = _
      rw [e1]
      show (do
        let l ← line s1
        let r ← loop H dt (fun a => dt * (s.masses a)⁻¹) k s1
        return (r.1, l :: r.2)) = _
      rw [eline]
      show (do
        let r ← loop H dt (fun a => dt * (s.masses a)⁻¹) k s1
        return (r.1, _ :: r.2)) = _
      rw [e2]
      rfl
    · refine ⟨hc2, hr2, ?_, ?_⟩
      · rw [hl2, hc, List.range_succ_eq_map, List.map_cons, List.map_map]
        rfl
      · rw [hh2, hh]
        by_cases hs : s.save = true
        · simp only [hs, if_true]
          rw [List.range_succ_eq_map, List.map_cons, List.map_map, List.append_assoc]
          rfl
        · simp [hs]

/-- **C132 (algorithm).**  A run of any number of steps follows the documented algorithm with the forces of the current
positions.  Afterwards fractional positions, energy and forces belong to the Cartesian positions, every printed line
shows potential, kinetic and total energy after its step, and the history has one entry for each step. -/
theorem C132_algorithm {n : ℕ} (H : Ham n) (dt : ℝ) (k : ℕ) (s : Sim n) (p : Arr n) (h : Ready H s p) :
    ∃ s' l, run H dt k s = .ok (s', l) ∧ s'.axis = s.axis ∧ s'.masses = s.masses ∧
      let st := step (fun x => (atCart H s.axis x).2) s.masses constFToP dt
      s'.cart = (st^[k] (s.cart, p)).1 ∧ Ready H s' (st^[k] (s.cart, p)).2 ∧
      l = (List.range k).map (fun j =>
        let e := (atCart H s.axis (st^[j + 1] (s.cart, p)).1).1
        let t := ke s.masses (st^[j + 1] (s.cart, p)).2
        (e, t, e + t)) ∧
      s'.hist = if s.save then s.hist ++ (List.range k).map (fun j => atCart H s.axis (st^[j + 1] (s.cart, p)).1)
        else s.hist := by
  unfold run
  rw [if_neg (by rw [h.mom]; simp)]
  exact loop_ok H dt k s p h

theorem step_reverse {n : ℕ} (F : Vecs n → Vecs n) (m : Fin n → ℝ) (k dt : ℝ) (s : Vecs n × Vecs n) :
    let R := fun s : Vecs n × Vecs n => (s.1, reversed s.2)
    step F m k dt (R (step F m k dt s)) = R s := by
  intro R
  have h1 : (step F m k dt (R (step F m k dt s))).1 = s.1 := by
    funext a i
    simp only [step, R, reversed]
    ring
  refine Prod.ext h1 ?_
  have h2 : ∀ t : Vecs n × Vecs n, (step F m k dt t).2 = fun a i =>
      t.2 a i + k * (dt / 2) * F t.1 a i + k * (dt / 2) * F (step F m k dt t).1 a i := fun _ => rfl
  rw [h2, h1]
  funext a i
  simp only [R, reversed]
  rw [h2 s]
  ring

/-- **C132 (reversibility).**  Running any number of steps, reversing all momenta and running the same number of steps
returns to the initial positions with the initial momenta reversed. -/
theorem C132_reversible {n : ℕ} (H : Ham n) (dt : ℝ) (k : ℕ) (s : Sim n) (p : Arr n) (h : Ready H s p) :
    ∃ s1 l1 p1 s2 l2, run H dt k s = .ok (s1, l1) ∧ s1.p = some p1 ∧
      run H dt k { s1 with p := some (reversed p1) } = .ok (s2, l2) ∧ s2.cart = s.cart ∧ s2.p = some (reversed p) := by
  obtain ⟨s1, l1, e1, ha, hm, hc, hr, -, -⟩ := C132_algorithm H dt k s p h
  have hr' : Ready H { s1 with p := some (reversed ((step (fun x => (atCart H s.axis x).2) s.masses constFToP dt)^[k]
      (s.cart, p)).2) } (reversed _) := ⟨hr.det, hr.cart, rfl, hr.ef⟩
  obtain ⟨s2, l2, e2, -, -, hc2, hr2, -, -⟩ := C132_algorithm H dt k _ _ hr'
  refine ⟨s1, l1, _, s2, l2, e1, hr.mom, e2, ?_⟩
  dsimp only at hc2 hr2
  rw [ha, hm, hc] at hc2 hr2
  have key : ∀ j, ∀ t : Vecs n × Vecs n,
      (step (fun x => (atCart H s.axis x).2) s.masses constFToP dt)^[j]
        (((step (fun x => (atCart H s.axis x).2) s.masses constFToP dt)^[j] t).1,
          reversed ((step (fun x => (atCart H s.axis x).2) s.masses constFToP dt)^[j] t).2) = (t.1, reversed t.2) := by
    intro j
    induction j with
    | zero => intro t; rfl
    | succ j ih =>
      intro t
      rw [Function.iterate_succ_apply', Function.iterate_succ_apply]
      rw [ih]
      exact step_reverse _ _ _ _ t
  have hk := key k (s.cart, p)
  rw [hk] at hc2 hr2
  exact ⟨hc2, hr2.mom⟩

/-- **C132 (momentum).**  When the forces of the Hamiltonian always add up to zero, no run changes the total momentum. -/
theorem C132_momentum {n : ℕ} (H : Ham n) (dt : ℝ) (k : ℕ) (s : Sim n) (p : Arr n) (h : Ready H s p)
    (hF : ∀ x, ∑ a, (H s.axis x).2 a = 0) :
    ∃ s' l p', run H dt k s = .ok (s', l) ∧ s'.p = some p' ∧ momentum p' = momentum p := by
  obtain ⟨s', l, e, -, -, -, hr, -, -⟩ := C132_algorithm H dt k s p h
  refine ⟨s', l, _, e, hr.mom, ?_⟩
  have h1 : ∀ t, momentum (step (fun x => (atCart H s.axis x).2) s.masses constFToP dt t).2 = momentum t.2 := by
    intro t
    have hz : ∀ (x : Arr n) (i : Fin 3), ∑ a, (atCart H s.axis x).2 a i = 0 := by
      intro x i
      have := congrFun (hF fun a => s.axis⁻¹.mulVec (x a)) i
      rwa [Finset.sum_apply] at this
    funext i
    simp only [momentum, Finset.sum_apply, step, Finset.sum_add_distrib, ← Finset.mul_sum, hz]
    ring
  have key : ∀ j, momentum ((step (fun x => (atCart H s.axis x).2) s.masses constFToP dt)^[j] (s.cart, p)).2 =
      momentum p := by
    intro j
    induction j with
    | zero => rfl
    | succ j ih => rw [Function.iterate_succ_apply', h1, ih]
  exact key k

/-- **C132 (angular momentum).**  When the torques of the Hamiltonian always add up to zero, no run changes the total
angular momentum. -/
theorem C132_angular {n : ℕ} (H : Ham n) (dt : ℝ) (k : ℕ) (s : Sim n) (p : Arr n) (h : Ready H s p)
    (hF : ∀ x : Arr n, ∑ a, crossProduct (s.axis.mulVec (x a)) ((H s.axis x).2 a) = 0) :
    ∃ s' l p', run H dt k s = .ok (s', l) ∧ s'.p = some p' ∧ angular s'.cart p' = angular s.cart p := by
  obtain ⟨s', l, e, -, -, hc, hr, -, -⟩ := C132_algorithm H dt k s p h
  refine ⟨s', l, _, e, hr.mom, ?_⟩
  have hz : ∀ x : Arr n, ∑ a, crossProduct (x a) ((atCart H s.axis x).2 a) = 0 := by
    intro x
    have := hF fun a => s.axis⁻¹.mulVec (x a)
    have e : ∀ a, s.axis.mulVec (s.axis⁻¹.mulVec (x a)) = x a := fun a => by
      rw [Matrix.mulVec_mulVec, Matrix.mul_nonsing_inv _ (isUnit_iff_ne_zero.2 h.det), Matrix.one_mulVec]
    simp only [e] at this
    exact this
  have kick : ∀ (x q : Arr n) (c : ℝ),
      angular x (fun a i => q a i + c * (atCart H s.axis x).2 a i) = angular x q := by
    intro x q c
    have : ∀ a, crossProduct (x a) (fun i => q a i + c * (atCart H s.axis x).2 a i) =
        crossProduct (x a) (q a) + c • crossProduct (x a) ((atCart H s.axis x).2 a) := by
      intro a
      rw [show (fun i => q a i + c * (atCart H s.axis x).2 a i) = q a + c • (atCart H s.axis x).2 a from rfl, map_add,
        map_smul]
    simp only [angular, this, Finset.sum_add_distrib, ← Finset.smul_sum, hz, smul_zero, add_zero]
  have drift : ∀ (x q : Arr n) (c : Fin n → ℝ), angular (fun a i => x a i + c a * q a i) q = angular x q := by
    intro x q c
    unfold angular
    refine Finset.sum_congr rfl fun a _ => ?_
    show crossProduct (x a + c a • q a) (q a) = _
    rw [map_add, map_smul, LinearMap.add_apply,
      LinearMap.smul_apply, cross_self, smul_zero, add_zero]
  have h1 : ∀ t, angular (step (fun x => (atCart H s.axis x).2) s.masses constFToP dt t).1
      (step (fun x => (atCart H s.axis x).2) s.masses constFToP dt t).2 = angular t.1 t.2 := by
    intro t
    refine (kick (step (fun x => (atCart H s.axis x).2) s.masses constFToP dt t).1
      (fun a i => t.2 a i + constFToP * (dt / 2) * (atCart H s.axis t.1).2 a i) (constFToP * (dt / 2))).trans ?_
    exact (drift t.1 _ fun a => dt / s.masses a).trans (kick t.1 t.2 _)
  rw [hc]
  have key : ∀ j, angular ((step (fun x => (atCart H s.axis x).2) s.masses constFToP dt)^[j] (s.cart, p)).1
      ((step (fun x => (atCart H s.axis x).2) s.masses constFToP dt)^[j] (s.cart, p)).2 = angular s.cart p := by
    intro j
    induction j with
    | zero => rfl
    | succ j ih => rw [Function.iterate_succ_apply', h1, ih]
  exact key k

theorem ke_eq {n : ℕ} (m : Fin n → ℝ) (p : Arr n) : ke m p = 1 / (2 * constFToP) * ∑ a, (∑ i, p a i ^ 2) / m a := by
  unfold ke
  have : ∀ a, √(∑ i, p a i ^ 2) ^ 2 = ∑ i, p a i ^ 2 := fun a => Real.sq_sqrt (Finset.sum_nonneg fun i _ => sq_nonneg _)
  simp only [this]
  congr 1
  unfold constFToP massToKg msToAngFs evToJ avogadro
  norm_num

/-- **C132 (units).**  The units of kinetic energy and of the change of momenta agree: along every exact motion
(`x' = p / m`, `p' = constFToP F`, and the energy changes at minus the work of the forces) the sum of potential and
kinetic energy is constant. -/
theorem C132_units {n : ℕ} (m : Fin n → ℝ) (E : ℝ → ℝ) (F p : ℝ → Arr n) (t : ℝ)
    (hE : HasDerivAt E (-∑ a, ∑ i, F t a i * (p t a i / m a)) t)
    (hp : ∀ a i, HasDerivAt (fun τ => p τ a i) (constFToP * F t a i) t) :
    HasDerivAt (fun τ => E τ + ke m (p τ)) 0 t := by
  simp only [ke_eq]
  have hc : constFToP ≠ 0 := by
    unfold constFToP avogadro evToJ
    norm_num
  have h1 : HasDerivAt (fun τ => ∑ a, (∑ i, p τ a i ^ 2) / m a)
      (∑ a, (∑ i, 2 * (p t a i * (constFToP * F t a i))) / m a) t := by
    refine HasDerivAt.fun_sum fun a _ => HasDerivAt.div_const (HasDerivAt.fun_sum fun i _ => ?_) _
    refine ((hp a i).pow 2).congr_deriv ?_
    norm_num
    ring
  refine (hE.add (h1.const_mul (1 / (2 * constFToP)))).congr_deriv ?_
  rw [Finset.mul_sum, neg_add_eq_sub, sub_eq_zero]
  refine Finset.sum_congr rfl fun a _ => ?_
  rw [Finset.sum_div, Finset.mul_sum]
  refine Finset.sum_congr rfl fun i _ => ?_
  field_simp

/-- **C132 (temperature).**  After `initialize` for `nvt` with standard normal numbers `z` the kinetic energy is
`kT / 2` times the sum of their squares, in eV. -/
theorem C132_temperature {n : ℕ} (H : Ham n) (T : ℝ) (hT : 0 ≤ T) (z : Arr n) (s : Sim n) (hm : ∀ a, 0 < s.masses a)
    (hdet : s.axis.det ≠ 0) (hcart : ∀ a, s.cart a = s.axis.mulVec (s.frac a)) :
    ∃ s' p, initializeSim H "nvt" T z s = .ok s' ∧ Ready H s' p ∧ s'.cart = s.cart ∧
      ke s'.masses p = 1 / 2 * (kb / evToJ * T) * ∑ a, ∑ i, z a i ^ 2 := by
  refine ⟨_, _, rfl, ⟨hdet, hcart, rfl, rfl⟩, rfl, ?_⟩
  show ke s.masses _ = _
  rw [ke_eq, Finset.mul_sum, Finset.mul_sum]
  refine Finset.sum_congr rfl fun a _ => ?_
  have hma := (hm a).ne'
  have hpos : 0 ≤ kb * T / massToKg * (s.masses a)⁻¹ := by
    have := (hm a).le
    have h1 : 0 ≤ kb := by unfold kb; norm_num
    have h2 : 0 ≤ massToKg := by unfold massToKg avogadro; norm_num
    positivity
  have : ∀ i, (√(kb * T / massToKg * (s.masses a)⁻¹) * z a i * msToAngFs * s.masses a) ^ 2 =
      (kb * T / massToKg * (s.masses a)⁻¹) * (msToAngFs * s.masses a) ^ 2 * z a i ^ 2 := by
    intro i
    linear_combination (z a i * msToAngFs * s.masses a) ^ 2 * Real.sq_sqrt hpos
  simp only [this, ← Finset.mul_sum]
  unfold constFToP massToKg msToAngFs evToJ avogadro
  field_simp
  norm_num
  left
  ring

/-- **C132 (violation).**  The documented ensemble `nve` always fails. -/
theorem C132_nve_violation {n : ℕ} (H : Ham n) (T : ℝ) (z : Arr n) (s : Sim n) :
    initializeSim H "nve" T z s = .error .nameError := rfl

/-- A run without momenta is refused. -/
theorem C132_no_momenta {n : ℕ} (H : Ham n) (dt : ℝ) (k : ℕ) (s : Sim n) (h : s.p = none) :
    run H dt k s = .error .runtimeError := by
  unfold run
  rw [if_pos (by rw [h]; rfl)]

/-- Two atoms bound by a spring in a unit cell: the hypotheses hold and both sums of forces and torques vanish. -/
example : ∃ (H : Ham 2) (s : Sim 2) (p : Arr 2), Ready H s p ∧ (∀ x, ∑ a, (H s.axis x).2 a = 0) ∧
    (∀ x : Arr 2, ∑ a, crossProduct (s.axis.mulVec (x a)) ((H s.axis x).2 a) = 0) ∧
    (H s.axis s.frac).2 0 ≠ 0 := by
  let H : Ham 2 := fun A x => (0, fun a => if a = 0 then A.mulVec (x 1) - A.mulVec (x 0)
    else A.mulVec (x 0) - A.mulVec (x 1))
  refine ⟨H, ⟨1, fun _ => 1, fun a _ => a.val, fun a _ => a.val, some fun _ _ => 1,
    some (H 1 fun a _ => a.val), true, []⟩, fun _ _ => 1, ⟨by simp, fun a => by simp, rfl, rfl⟩, fun x => ?_,
    fun x => ?_, fun h => ?_⟩
  · simp [H, Fin.sum_univ_two]
  · simp only [H, Fin.sum_univ_two, Matrix.one_mulVec]
    simp only [if_true, Fin.one_eq_zero_iff, OfNat.ofNat_ne_one, if_false, map_sub, cross_self]
    rw [← cross_anticomm (x 0) (x 1)]
    simp
  · have := congrFun h 0
    simp [H] at this

end Verif.Verlet
