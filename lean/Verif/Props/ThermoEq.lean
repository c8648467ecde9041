import Verif.Props.Thermo
import Verif.Props.Polyfit
import Verif.Spec.ThermoEq
import Mathlib.LinearAlgebra.Matrix.Rank

/-!
# C75: equilibrium properties
-/

namespace Verif.Thermo
open Verif.Spec

/-! ### Fits with few points -/

theorem few_singular {n p : ℕ} (X : Matrix (Fin n) (Fin p) ℝ) (h : (X.transpose * X).det ≠ 0) : p ≤ n := by
  have h1 : IsUnit (X.transpose * X) := (Matrix.isUnit_iff_isUnit_det _).2 (isUnit_iff_ne_zero.2 h)
  have h2 := Matrix.rank_of_isUnit _ h1
  have h3 := Matrix.rank_mul_le_right X.transpose X
  have h4 := X.rank_le_height
  rw [Fintype.card_fin] at h2
  omega

theorem square_leverage {n p : ℕ} (hnp : n = p) (X : Matrix (Fin n) (Fin p) ℝ) (h : (X.transpose * X).det ≠ 0)
    (i : Fin n) : Polyfit.leverage X i = 1 := by
  subst hnp
  have h1 : X.det ≠ 0 := by
    intro h1
    rw [Matrix.det_mul, Matrix.det_transpose, h1] at h
    simp at h
  unfold Polyfit.leverage
  have hu : IsUnit X.det := isUnit_iff_ne_zero.2 h1
  have hu' : IsUnit X.transpose.det := by rwa [Matrix.det_transpose]
  rw [Matrix.mul_inv_rev, ← Matrix.mul_assoc, Matrix.mul_nonsing_inv X hu, Matrix.one_mul,
    Matrix.nonsing_inv_mul _ hu', Matrix.one_apply_eq]

theorem few_score {n : ℕ} (x y : Fin n → ℝ) (o : ℕ) (ho : 2 ≤ o) (hn : n ≤ 3) :
    Polyfit.cvOf x y ⟨true, true, false, false, false⟩ (false, o) = none := by
  unfold Polyfit.cvOf
  cases h : Polyfit.fitSingle x y o ⟨true, true, false, false, false⟩ with
  | error e => rfl
  | ok r =>
    cases r with
    | none => rfl
    | some co =>
      dsimp only
      have hp : Polyfit.nFeat o ⟨true, true, false, false, false⟩ = o + 1 := by
        unfold Polyfit.nFeat
        rw [Polyfit.powers_length]
        simp
      have hdet := (Polyfit.fitSingle_some x y o _ co h).1
      have hw : Polyfit.weights n ⟨true, true, false, false, false⟩ = fun _ => 1 :=
        Polyfit.weights_one ⟨true, true, false, false, false⟩ rfl rfl false
      rw [hw, Polyfit.gram_one] at hdet
      have h1 := few_singular _ hdet
      have h2 : n = Polyfit.nFeat o ⟨true, true, false, false, false⟩ := by omega
      unfold Polyfit.loocv
      rw [if_pos]
      have hpos : 0 < n := by omega
      exact ⟨⟨0, hpos⟩, square_leverage h2 _ hdet _⟩

theorem few_fit {n : ℕ} (x y : Fin n → ℝ) (hn : n ≤ 3) :
    Polyfit.fit x y none 6 ⟨true, true, false, false, false⟩ (some false) = .error .typeError := by
  rcases Polyfit.choose_spec x y none 6 ⟨true, true, false, false, false⟩ (some false) rfl rfl with
    ⟨s, o, h2, h3, h4⟩ | ⟨s, o, cv, h2, h3, h4, h5, h6⟩ | ⟨h2, h3⟩
  · have e1 := (h4 false 2 ⟨Or.inr rfl, Or.inr ⟨rfl, by norm_num, by norm_num⟩⟩).2
    have e2 := (h4 false 3 ⟨Or.inr rfl, Or.inr ⟨rfl, by norm_num, by norm_num⟩⟩).2
    omega
  · exfalso
    obtain ⟨c1, c2⟩ := h3
    have hs : s = false := by
      rcases c1 with c1 | c1
      · cases c1
      · exact (Option.some.inj c1).symm
    have ho : 2 ≤ o := by
      rcases c2 with c2 | c2
      · cases c2
      · exact c2.2.1
    rw [hs, few_score x y o ho hn] at h4
    cases h4
  · unfold Polyfit.fit
    rw [h2]
    rfl

theorem fit_order {n : ℕ} (x y : Fin n → ℝ) (m : Polyfit.Fitted)
    (h : Polyfit.fit x y none 6 ⟨true, true, false, false, false⟩ (some false) = .ok m) :
    3 < n ∧ m.addSqrt = false ∧ 2 ≤ m.order ∧ m.order ≤ 6 := by
  have hn : 3 < n := by
    by_contra hn
    rw [few_fit x y (by omega)] at h
    cases h
  obtain ⟨⟨c1, c2⟩, -⟩ := Polyfit.C73_choice x y none 6 _ (some false) (by omega) rfl rfl m h
  refine ⟨hn, ?_, ?_⟩
  · rcases c1 with c1 | c1
    · cases c1
    · exact (Option.some.inj c1).symm
  · rcases c2 with c2 | c2
    · cases c2
    · exact c2.2

theorem fit_some {n : ℕ} (x y : Fin n → ℝ) (o : ℕ) (ho : 2 ≤ o) (ho6 : o ≤ 6) (score : ℝ) (hn : 0 < n)
    (hd : Determined (Family o true true false) x)
    (hs : LeaveOneOut (Family o true true false) x y (fun _ => 1) score) (hlt : score < 10 ^ 10) :
    ∃ m, Polyfit.fit x y none 6 ⟨true, true, false, false, false⟩ (some false) = .ok m := by
  have hcv := Polyfit.loo_cvOf x y ⟨true, true, false, false, false⟩ rfl rfl hn false o score hd hs
  rcases Polyfit.choose_spec x y none 6 ⟨true, true, false, false, false⟩ (some false) rfl rfl with
    ⟨s, o, h2, h3, h4⟩ | ⟨s, o, cv, h2, h3, h4, h5, h6⟩ | ⟨h2, h3⟩
  · have e1 := (h4 false 2 ⟨Or.inr rfl, Or.inr ⟨rfl, by norm_num, by norm_num⟩⟩).2
    have e2 := (h4 false 3 ⟨Or.inr rfl, Or.inr ⟨rfl, by norm_num, by norm_num⟩⟩).2
    omega
  · unfold Polyfit.fit
    rw [h2]
    simp only [bind, Except.bind]
    unfold Polyfit.cvOf at h4
    cases hf : Polyfit.fitSingle x y o { (⟨true, true, false, false, false⟩ : Polyfit.Flags) with addSqrt := s } with
    | error e' =>
      simp only [hf] at h4
      cases h4
    | ok r =>
      cases r with
      | none =>
        simp only [hf] at h4
        cases h4
      | some co => exact ⟨_, rfl⟩
  · have := h3 false o score ⟨Or.inr rfl, Or.inr ⟨rfl, ho, ho6⟩⟩ hcv
    linarith

/-! ### Properties -/

theorem maxVolume_ok (g : Grid) (vmax : ℚ) (h : maxVolume g = .ok vmax) :
    vmax ∈ g.volumes ∧ ∀ v ∈ g.volumes, v ≤ vmax := by
  unfold maxVolume at h
  cases hv : g.volumes with
  | nil =>
    rw [hv] at h
    cases h
  | cons v vs =>
    rw [hv] at h
    simp only [Except.ok.injEq] at h
    subst h
    have key : ∀ (l : List ℚ) (a : ℚ), (l.foldl max a = a ∨ l.foldl max a ∈ l) ∧ a ≤ l.foldl max a ∧
        ∀ w ∈ l, w ≤ l.foldl max a := by
      intro l
      induction l with
      | nil => intro a; simp
      | cons b l ih =>
        intro a
        obtain ⟨h1, h2, h3⟩ := ih (max a b)
        rw [List.foldl_cons]
        refine ⟨?_, (le_max_left a b).trans h2, ?_⟩
        · rcases h1 with h1 | h1
          · rw [h1]
            rcases max_choice a b with h | h
            · exact Or.inl h
            · exact Or.inr (by rw [h]; simp)
          · exact Or.inr (List.mem_cons_of_mem _ h1)
        · intro w hw
          rcases List.mem_cons.1 hw with rfl | hw
          · exact (le_max_right a w).trans h2
          · exact h3 w hw
    obtain ⟨h1, h2, h3⟩ := key vs v
    refine ⟨?_, ?_⟩
    · rcases h1 with h1 | h1
      · rw [h1]
        simp
      · exact List.mem_cons_of_mem _ h1
    · intro w hw
      rcases List.mem_cons.1 hw with rfl | hw
      · exact h2
      · exact h3 w hw

theorem mapM_ok {α β : Type} (f : α → Except Err β) (l : List α) (r : List β) (h : l.mapM f = .ok r) :
    r.length = l.length ∧ ∀ (i : ℕ) (a : α), l[i]? = some a → ∃ b, f a = .ok b ∧ r[i]? = some b := by
  induction l generalizing r with
  | nil =>
    simp only [List.mapM_nil, pure, Except.pure, Except.ok.injEq] at h
    subst h
    simp
  | cons a l ih =>
    rw [List.mapM_cons] at h
    simp only [bind, Except.bind, pure, Except.pure] at h
    cases hf : f a with
    | error e => simp [hf] at h
    | ok b =>
      cases hm : l.mapM f with
      | error e => simp [hf, hm] at h
      | ok r' =>
        simp only [hf, hm, Except.ok.injEq] at h
        subst h
        obtain ⟨h1, h2⟩ := ih r' hm
        refine ⟨by simp [h1], fun i a' hi => ?_⟩
        cases i with
        | zero =>
          simp only [List.getElem?_cons_zero, Option.some.injEq] at hi
          subst hi
          exact ⟨b, hf, by simp⟩
        | succ i =>
          simp only [List.getElem?_cons_succ] at hi
          obtain ⟨b', h3, h4⟩ := h2 i a' hi
          exact ⟨b', h3, by simpa using h4⟩

theorem mapM_error {α β : Type} (f : α → Except Err β) (l : List α) (e : Err) (h : l.mapM f = .error e) :
    ∃ a ∈ l, f a = .error e := by
  induction l with
  | nil => cases h
  | cons a l ih =>
    rw [List.mapM_cons] at h
    simp only [bind, Except.bind, pure, Except.pure] at h
    cases hf : f a with
    | error e' =>
      simp only [hf, Except.error.injEq] at h
      exact ⟨a, by simp, by rw [hf, h]⟩
    | ok b =>
      cases hm : l.mapM f with
      | error e' =>
        simp only [hf, hm, Except.error.injEq] at h
        obtain ⟨a', h1, h2⟩ := ih (by rw [hm, h])
        exact ⟨a', List.mem_cons_of_mem _ h1, h2⟩
      | ok r' => simp [hf, hm] at h

theorem getElem?_range (n i : ℕ) (h : i < n) : (List.range n)[i]? = some i := by
  rw [List.getElem?_range h]

/-- The entropies at equilibrium before they are stored. -/
noncomputable def eqS (vmax : ℚ) (fv : List (Option Eos)) (sv : List Polyfit.Fitted) : List (Option ℝ) :=
  List.zipWith (fun e p => (eqProps vmax e p).map Prod.snd) fv sv

theorem run_ok (u : Units) (eos : List (ℚ × ℝ) → Option Eos) (g : Grid) (r : Standard)
    (h : runStandard u eos g = .ok r) : ∃ vmax, maxVolume g = .ok vmax ∧ r.fv = fitFreeEnergy eos g ∧
      fitEntropy g 6 = .ok r.sv ∧ r.eqEntropies = eqS vmax r.fv r.sv ∧
      cpNumerical u.kj g.temps r.eqEntropies = .ok r.cp := by
  unfold runStandard at h
  simp only [bind, Except.bind, pure, Except.pure] at h
  cases h1 : maxVolume g with
  | error e => simp [h1] at h
  | ok vmax =>
    cases h2 : fitEntropy g 6 with
    | error e => simp [h1, h2] at h
    | ok sv =>
      simp only [h1, h2] at h
      cases h3 : cpNumerical u.kj g.temps
        (List.zipWith (fun e p => (eqProps vmax e p).map Prod.snd) (fitFreeEnergy eos g) sv) with
      | error e => simp [h3] at h
      | ok cp =>
        simp only [h3, Except.ok.injEq] at h
        subst h
        exact ⟨vmax, rfl, rfl, rfl, rfl, h3⟩

theorem eqOk_iff (g : Grid) (vmax : ℚ) (hm : vmax ∈ g.volumes) (hx : ∀ v ∈ g.volumes, v ≤ vmax) (x : Option Eos)
    (e : Eos) : eqOk vmax x = some e ↔ x = some e ∧ (∃ v ∈ g.volumes, e.v0 ≤ 12 / 10 * (v : ℝ)) ∧ 1 / 1000 ≤ e.b0 := by
  have hv : ∀ e : Eos, (∃ v ∈ g.volumes, e.v0 ≤ 12 / 10 * (v : ℝ)) ↔ ¬ (vmax : ℝ) * (12 / 10) < e.v0 := by
    intro e
    rw [not_lt]
    constructor
    · rintro ⟨v, h1, h2⟩
      have h3 : (v : ℝ) ≤ vmax := by exact_mod_cast hx v h1
      linarith
    · intro h
      exact ⟨vmax, hm, by linarith⟩
  unfold eqOk
  cases x with
  | none => simp
  | some e' =>
    dsimp only
    constructor
    · intro h
      split_ifs at h with h1 h2
      injection h with h
      subst h
      exact ⟨rfl, (hv _).2 h1, not_lt.1 h2⟩
    · rintro ⟨h0, h1, h2⟩
      injection h0 with h0
      subst h0
      rw [if_neg ((hv _).1 h1), if_neg (not_lt.2 h2)]

theorem fitEntropyAt_ok (g : Grid) (j : ℕ) (m : Polyfit.Fitted) (h : fitEntropyAt g 6 j = .ok m) :
    PolynomialFit (pointsAt g .entropy j) m.eval ∧ 4 ≤ (pointsAt g .entropy j).length := by
  have h' : Polyfit.fit (n := (pointsAt g .entropy j).length) (fun i => (((pointsAt g .entropy j).get i).1 : ℝ))
      (fun i => ((pointsAt g .entropy j).get i).2) none 6 ⟨true, true, false, false, false⟩ (some false) = .ok m := h
  obtain ⟨h1, h2, h3, h4⟩ := fit_order _ _ m h'
  refine ⟨⟨m.order, h3, h4, ?_⟩, h1⟩
  have h5 := Polyfit.C73_best _ _ none 6 _ (some false) m h'
  rw [h2] at h5
  have hw : endWeight (pointsAt g .entropy j).length false false = fun _ => 1 := by
    funext i
    simp [endWeight]
  rw [hw] at h5
  exact h5

/-- C75, entropy: at every temperature the entropies of at least four volumes are fitted by a polynomial, which is
evaluated at the equilibrium volume; without an equilibrium there is no entropy. -/
theorem C75_entropy (u : Units) (eos : List (ℚ × ℝ) → Option Eos) (g : Grid) (r : Standard)
    (h : runStandard u eos g = .ok r) (j : ℕ) (hj : j < g.temps.length) :
    r.fv[j]? = some (eos (pointsAt g .freeEnergy j)) ∧ 4 ≤ (pointsAt g .entropy j).length ∧
    ∃ S, PolynomialFit (pointsAt g .entropy j) S ∧ ∃ x, r.eqEntropies[j]? = some x ∧
      ∀ s, x = some s ↔ ∃ e, Equilibrium g eos j e ∧ s = S e.v0 := by
  obtain ⟨vmax, h1, h2, h3, h4, h5⟩ := run_ok u eos g r h
  obtain ⟨m1, m2⟩ := maxVolume_ok g vmax h1
  have hf : r.fv[j]? = some (eos (pointsAt g .freeEnergy j)) := by
    rw [h2]
    unfold fitFreeEnergy
    rw [List.getElem?_map, getElem?_range _ _ hj]
    rfl
  obtain ⟨m, hm, hs⟩ := (mapM_ok _ _ _ h3).2 j j (getElem?_range _ _ hj)
  obtain ⟨p1, p2⟩ := fitEntropyAt_ok g j m hm
  refine ⟨hf, p2, m.eval, p1, (eqProps vmax (eos (pointsAt g .freeEnergy j)) m).map Prod.snd, ?_, fun s => ?_⟩
  · rw [h4]
    unfold eqS
    rw [List.getElem?_zipWith, hf, hs]
  · unfold eqProps Equilibrium
    rw [Option.map_map, Option.map_eq_some_iff]
    constructor
    · rintro ⟨e, he, rfl⟩
      exact ⟨e, (eqOk_iff g vmax m1 m2 _ e).1 he, rfl⟩
    · rintro ⟨e, he, rfl⟩
      exact ⟨e, (eqOk_iff g vmax m1 m2 _ e).2 he, rfl⟩

/-- C75, heat capacity: central differences inside, zero at zero temperature and no value at the ends. -/
theorem C75_cp (u : Units) (eos : List (ℚ × ℝ) → Option Eos) (g : Grid) (r : Standard)
    (h : runStandard u eos g = .ok r) :
    r.cp.length = g.temps.length ∧
    r.cp[g.temps.length - 1]? = some none ∧
    (2 ≤ g.temps.length → ∃ t, g.temps[0]? = some t ∧ r.cp[0]? = some (if t = 0 then some 0 else none)) ∧
    ∀ (i : ℕ) (t0 t1 t2 : ℤ), g.temps[i]? = some t0 → g.temps[i + 1]? = some t1 → g.temps[i + 2]? = some t2 →
      ∃ s0 s2, r.eqEntropies[i]? = some (some s0) ∧ r.eqEntropies[i + 2]? = some (some s2) ∧
        r.cp[i + 1]? = some (some ((s2 - s0) / ((t2 : ℝ) - t0) * t1 * (1000 * u.kj))) := by
  obtain ⟨vmax, -, -, -, -, h5⟩ := run_ok u eos g r h
  unfold cpNumerical at h5
  have h0 : g.temps ≠ [] := by
    intro h0
    rw [if_pos h0] at h5
    cases h5
  rw [if_neg h0] at h5
  obtain ⟨h1, h2⟩ := mapM_ok _ _ _ h5
  rw [List.length_range] at h1
  have hpos : 0 < g.temps.length := List.length_pos_of_ne_nil h0
  refine ⟨h1, ?_, fun h3 => ?_, fun i t0 t1 t2 e0 e1 e2 => ?_⟩
  · obtain ⟨b, h3, h4⟩ := h2 (g.temps.length - 1) _ (getElem?_range _ _ (by omega))
    rw [if_neg (by omega), if_pos (by omega)] at h3
    rw [h4, ← Except.ok.inj h3]
  · obtain ⟨b, h6, h4⟩ := h2 0 _ (getElem?_range _ _ (by omega))
    rw [if_neg (by omega), if_neg (by omega)] at h6
    obtain ⟨t, ts, ht⟩ := List.exists_cons_of_ne_nil h0
    have hd : g.temps.headD 0 = t := by rw [ht]; rfl
    rw [hd] at h6
    refine ⟨t, by rw [ht]; rfl, ?_⟩
    rw [h4]
    by_cases h7 : t = 0
    · rw [if_pos h7] at h6 ⊢
      rw [← Except.ok.inj h6]
    · rw [if_neg h7] at h6 ⊢
      rw [← Except.ok.inj h6]
  · have hl := (List.getElem?_eq_some_iff.1 e2).1
    obtain ⟨b, h6, h4⟩ := h2 (i + 1) _ (getElem?_range _ _ (by omega))
    rw [if_pos (by omega)] at h6
    have ei : i + 1 - 1 = i := by omega
    rw [ei] at h6
    have d0 : g.temps.getD i 0 = t0 := by rw [List.getD_eq_getElem?_getD, e0]; rfl
    have d1 : g.temps.getD (i + 1) 0 = t1 := by rw [List.getD_eq_getElem?_getD, e1]; rfl
    have d2 : g.temps.getD (i + 1 + 1) 0 = t2 := by rw [List.getD_eq_getElem?_getD, e2]; rfl
    rw [d0, d1, d2] at h6
    rcases hb : r.eqEntropies[i + 1 + 1]? with _ | _ | s2
    · simp [hb] at h6
    · simp [hb] at h6
    · rcases ha : r.eqEntropies[i]? with _ | _ | s0
      · simp [hb, ha] at h6
      · simp [hb, ha] at h6
      · simp only [hb, ha, Except.ok.injEq] at h6
        exact ⟨s0, s2, rfl, rfl, by rw [h4, ← h6]⟩

/-- C75, violation: with three volumes or fewer at any temperature of the grid the analysis fails. -/
theorem C75_few_violation (u : Units) (eos : List (ℚ × ℝ) → Option Eos) (g : Grid) (j : ℕ) (hj : j < g.temps.length)
    (hl : (pointsAt g .entropy j).length ≤ 3) : ∃ e, runStandard u eos g = .error e := by
  cases h : runStandard u eos g with
  | error e => exact ⟨e, rfl⟩
  | ok r =>
    have := (C75_entropy u eos g r h j hj).2.1
    omega

/-- C75, violation: one temperature without an equilibrium makes the whole analysis fail if there are four
temperatures or more. -/
theorem C75_missing_violation (u : Units) (eos : List (ℚ × ℝ) → Option Eos) (g : Grid) (j : ℕ)
    (hj : j < g.temps.length) (h4 : 4 ≤ g.temps.length) (hn : ∀ e, ¬ Equilibrium g eos j e) :
    ∃ e, runStandard u eos g = .error e := by
  cases h : runStandard u eos g with
  | error e => exact ⟨e, rfl⟩
  | ok r =>
    exfalso
    obtain ⟨-, -, -, hc⟩ := C75_cp u eos g r h
    obtain ⟨-, -, S, -, x, hx, hs⟩ := C75_entropy u eos g r h j hj
    have key : ∀ s, r.eqEntropies[j]? ≠ some (some s) := by
      intro s h1
      rw [hx] at h1
      injection h1 with h1
      obtain ⟨e, he, -⟩ := (hs s).1 h1
      exact hn e he
    have get : ∀ i, i < g.temps.length → ∃ t, g.temps[i]? = some t := fun i hi => ⟨_, List.getElem?_eq_getElem hi⟩
    by_cases h2 : j + 2 < g.temps.length
    · obtain ⟨t0, e0⟩ := get j (by omega)
      obtain ⟨t1, e1⟩ := get (j + 1) (by omega)
      obtain ⟨t2, e2⟩ := get (j + 2) (by omega)
      obtain ⟨s0, s2, h3, -⟩ := hc j t0 t1 t2 e0 e1 e2
      exact key s0 h3
    · obtain ⟨k, rfl⟩ : ∃ k, j = k + 2 := ⟨j - 2, by omega⟩
      obtain ⟨t0, e0⟩ := get k (by omega)
      obtain ⟨t1, e1⟩ := get (k + 1) (by omega)
      obtain ⟨t2, e2⟩ := get (k + 2) (by omega)
      obtain ⟨s0, s2, -, h3, -⟩ := hc k t0 t1 t2 e0 e1 e2
      exact key s2 h3

/-- C75, errors: there are no other reasons to fail. -/
theorem C75_success (u : Units) (eos : List (ℚ × ℝ) → Option Eos) (g : Grid) (hv : g.volumes ≠ [])
    (ht : g.temps ≠ [])
    (hs : ∀ j < g.temps.length, ∃ o score, 2 ≤ o ∧ o ≤ 6 ∧ 4 ≤ (pointsAt g .entropy j).length ∧
      Determined (n := (pointsAt g .entropy j).length) (Family o true true false)
        (fun i => (((pointsAt g .entropy j).get i).1 : ℝ)) ∧
      LeaveOneOut (n := (pointsAt g .entropy j).length) (Family o true true false)
        (fun i => (((pointsAt g .entropy j).get i).1 : ℝ)) (fun i => ((pointsAt g .entropy j).get i).2) (fun _ => 1)
        score ∧ score < 10 ^ 10)
    (he : ∀ j < g.temps.length, ∃ e, Equilibrium g eos j e) : ∃ r, runStandard u eos g = .ok r := by
  have h1 : ∃ vmax, maxVolume g = .ok vmax := by
    obtain ⟨v, vs, h⟩ := List.exists_cons_of_ne_nil hv
    unfold maxVolume
    rw [h]
    exact ⟨_, rfl⟩
  obtain ⟨vmax, h1⟩ := h1
  obtain ⟨m1, m2⟩ := maxVolume_ok g vmax h1
  have h2 : ∃ sv, fitEntropy g 6 = .ok sv := by
    cases h : fitEntropy g 6 with
    | ok sv => exact ⟨sv, rfl⟩
    | error e =>
      exfalso
      obtain ⟨j, hj, h2⟩ := mapM_error _ _ _ h
      rw [List.mem_range] at hj
      obtain ⟨o, score, o1, o2, h3, h4, h5, h6⟩ := hs j hj
      obtain ⟨m, hm⟩ := fit_some _ _ o o1 o2 score (by omega) h4 h5 h6
      have : fitEntropyAt g 6 j = .ok m := hm
      rw [h2] at this
      cases this
  obtain ⟨sv, h2⟩ := h2
  have hsome : ∀ j < g.temps.length, ∃ s, (eqS vmax (fitFreeEnergy eos g) sv)[j]? = some (some s) := by
    intro j hj
    obtain ⟨e, he⟩ := he j hj
    obtain ⟨m, -, hm⟩ := (mapM_ok _ _ _ h2).2 j j (getElem?_range _ _ hj)
    refine ⟨m.eval e.v0, ?_⟩
    unfold eqS fitFreeEnergy
    rw [List.getElem?_zipWith, List.getElem?_map, getElem?_range _ _ hj, hm]
    have : eqOk vmax (eos (pointsAt g .freeEnergy j)) = some e := (eqOk_iff g vmax m1 m2 _ e).2 he
    have : eqOk vmax (eos (g.column .freeEnergy j)) = some e := this
    simp [eqProps, this]
  have h3 : ∃ cp, cpNumerical u.kj g.temps (eqS vmax (fitFreeEnergy eos g) sv) = .ok cp := by
    cases h : cpNumerical u.kj g.temps (eqS vmax (fitFreeEnergy eos g) sv) with
    | ok cp => exact ⟨cp, rfl⟩
    | error e =>
      exfalso
      unfold cpNumerical at h
      rw [if_neg ht] at h
      obtain ⟨i, hi, h4⟩ := mapM_error _ _ _ h
      rw [List.mem_range] at hi
      split_ifs at h4 with h5
      obtain ⟨s0, e0⟩ := hsome (i - 1) (by omega)
      obtain ⟨s2, e2⟩ := hsome (i + 1) (by omega)
      simp [e0, e2] at h4
  obtain ⟨cp, h3⟩ := h3
  refine ⟨⟨fitFreeEnergy eos g, sv, eqS vmax (fitFreeEnergy eos g) sv, cp⟩, ?_⟩
  unfold runStandard
  simp only [bind, Except.bind, pure, Except.pure, h1, h2]
  have h3' : cpNumerical u.kj g.temps
      (List.zipWith (fun e p => (eqProps vmax e p).map Prod.snd) (fitFreeEnergy eos g) sv) = .ok cp := h3
  rw [h3']
  rfl

/-- Zero free energies and entropies for the volumes 1 to 4 at 0 to 3 K. -/
def flatGrid : Grid := ⟨[1, 2, 3, 4], [0, 1, 2, 3], fun i _ => ⟨some ((i : ℚ) + 1), none, none, fun _ => some 0, none, none⟩⟩

theorem flat_points (a : Attr) (j : ℕ) : pointsAt flatGrid a j = [(1, 0), (2, 0), (3, 0), (4, 0)] := by
  have : List.range flatGrid.volumes.length = [0, 1, 2, 3] := by decide
  unfold pointsAt
  rw [this]
  simp only [flatGrid, List.filterMap_cons, List.filterMap_nil]
  norm_num

theorem flat_determined :
    Determined (n := 4) (Family 2 true true false) (fun i => ((([(1, 0), (2, 0), (3, 0), (4, 0)] : List (ℚ × ℝ)).get i).1 : ℝ)) := by
  rintro i g ⟨s, a, h1, -, -, h4⟩ hg t
  have hs := h1 rfl
  have h5 : ∀ t, g t = a 0 + a 1 * t + a 2 * t ^ 2 := by
    intro t
    rw [h4, Finset.sum_range_succ, Finset.sum_range_succ, Finset.sum_range_succ]
    simp [hs]
  have k0 := hg 0
  have k1 := hg 1
  have k2 := hg 2
  have k3 := hg 3
  rw [h5] at k0 k1 k2 k3
  have e0 : (0 : Fin 4) ≠ i → a 0 + a 1 + a 2 = 0 := by simpa using k0
  have e1 : (1 : Fin 4) ≠ i → a 0 + a 1 * 2 + a 2 * 2 ^ 2 = 0 := by simpa using k1
  have e2 : (2 : Fin 4) ≠ i → a 0 + a 1 * 3 + a 2 * 3 ^ 2 = 0 := by simpa using k2
  have e3 : (3 : Fin 4) ≠ i → a 0 + a 1 * 4 + a 2 * 4 ^ 2 = 0 := by simpa using k3
  have hz : a 0 = 0 ∧ a 1 = 0 ∧ a 2 = 0 := by
    fin_cases i
    · have f1 := e1 (by decide)
      have f2 := e2 (by decide)
      have f3 := e3 (by decide)
      refine ⟨?_, ?_, ?_⟩ <;> linarith
    · have f1 := e0 (by decide)
      have f2 := e2 (by decide)
      have f3 := e3 (by decide)
      refine ⟨?_, ?_, ?_⟩ <;> linarith
    · have f1 := e0 (by decide)
      have f2 := e1 (by decide)
      have f3 := e3 (by decide)
      refine ⟨?_, ?_, ?_⟩ <;> linarith
    · have f1 := e0 (by decide)
      have f2 := e1 (by decide)
      have f3 := e2 (by decide)
      refine ⟨?_, ?_, ?_⟩ <;> linarith
  rw [h5, hz.1, hz.2.1, hz.2.2]
  ring

theorem flat_loo :
    LeaveOneOut (n := 4) (Family 2 true true false) (fun i => ((([(1, 0), (2, 0), (3, 0), (4, 0)] : List (ℚ × ℝ)).get i).1 : ℝ))
      (fun i => (([(1, 0), (2, 0), (3, 0), (4, 0)] : List (ℚ × ℝ)).get i).2) (fun _ => 1) 0 := by
  have hy : ∀ i : Fin 4, (([(1, 0), (2, 0), (3, 0), (4, 0)] : List (ℚ × ℝ)).get i).2 = 0 := by
    intro i
    fin_cases i <;> rfl
  refine ⟨fun _ _ => 0, fun i => ⟨Polyfit.family_zero _ _ _ _, fun g' _ => ?_⟩, ?_⟩
  · rw [Finset.sum_eq_zero]
    · exact Finset.sum_nonneg fun k _ => mul_nonneg (by dsimp only; split_ifs <;> norm_num) (sq_nonneg _)
    · intro k _
      dsimp only
      rw [hy]
      simp
  · simp only [hy]
    simp

/-- A concrete case: an analysis that succeeds. -/
example (u : Units) : ∃ r, runStandard u (fun _ => some ⟨0, 1, 2⟩) flatGrid = .ok r := by
  refine C75_success u _ flatGrid (by simp [flatGrid]) (by simp [flatGrid]) (fun j _ => ?_) (fun j _ => ?_)
  · rw [flat_points]
    exact ⟨2, 0, le_refl _, by norm_num, by simp, flat_determined, flat_loo, by norm_num⟩
  · exact ⟨⟨0, 1, 2⟩, rfl, ⟨2, by simp [flatGrid], by norm_num⟩, by norm_num⟩

/-- One temperature without an equation of state: the whole analysis fails. -/
example (u : Units) : ∃ e, runStandard u (fun _ => none) flatGrid = .error e :=
  C75_missing_violation u _ flatGrid 1 (by simp [flatGrid]) (by simp [flatGrid]) fun e h => by cases h.1

end Verif.Thermo
