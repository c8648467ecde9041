import Verif.Props.TransitionRun
import Verif.Props.Eos

/-!
# C93: phase boundaries
-/

namespace Verif.Transition

open Verif.Spec Verif.Vasprun Verif.Polyfit

theorem maxOf_ok (l : List ℝ) (m : ℝ) (h : maxOf l = .ok m) : m ∈ l ∧ ∀ x ∈ l, x ≤ m := by
  cases l with
  | nil => cases h
  | cons a l =>
    simp only [maxOf, Except.ok.injEq] at h
    subst h
    exact foldl_max_spec l a

theorem maxPressure_ok (gs : List (List (ℝ × ℝ))) (m : ℝ) (h : maxPressure gs = .ok m) :
    TopPressure gs m ∧ ∀ g ∈ gs, g ≠ [] := by
  unfold maxPressure at h
  simp only [bind, Except.bind] at h
  cases h1 : gs.mapM fun g => maxOf (g.map Prod.fst) with
  | error e => simp [h1] at h
  | ok l =>
    simp only [h1] at h
    rw [mapM_iff] at h1
    obtain ⟨h2, h3⟩ := maxOf_ok l m h
    have hall : ∀ g ∈ gs, ∃ x ∈ l, maxOf (g.map Prod.fst) = .ok x := by
      clear h2 h3 h
      induction h1 with
      | nil => simp
      | @cons a b l r hab _ ih =>
        intro g hg
        rcases List.mem_cons.1 hg with rfl | hg
        · exact ⟨b, by simp, hab⟩
        · obtain ⟨x, hx, h⟩ := ih g hg
          exact ⟨x, by simp [hx], h⟩
    have hall' : ∀ x ∈ l, ∃ g ∈ gs, maxOf (g.map Prod.fst) = .ok x := by
      clear h2 h3 h hall
      induction h1 with
      | nil => simp
      | @cons a b l r hab _ ih =>
        intro g hg
        rcases List.mem_cons.1 hg with rfl | hg
        · exact ⟨a, by simp, hab⟩
        · obtain ⟨x, hx, h⟩ := ih g hg
          exact ⟨x, by simp [hx], h⟩
    refine ⟨⟨?_, ?_⟩, ?_⟩
    · obtain ⟨g, hg, hgm⟩ := hall' m h2
      obtain ⟨x, hx, rfl⟩ := List.mem_map.1 (maxOf_ok _ _ hgm).1
      exact ⟨g, hg, x, hx, rfl⟩
    · intro g hg x hx
      obtain ⟨y, hy, hgy⟩ := hall g hg
      exact ((maxOf_ok _ _ hgy).2 _ (List.mem_map_of_mem hx)).trans (h3 y hy)
    · rintro g hg rfl
      obtain ⟨y, -, hgy⟩ := hall [] hg
      cases hgy

theorem fitPoints_chosen (d : List (ℝ × ℝ)) (hd : d ≠ []) (maxOrder : ℕ) (m : Fitted)
    (h : fitPoints d none maxOrder = .ok m) : ChosenPolynomial maxOrder d m.eval := by
  obtain ⟨hb, hs, -⟩ := fitPoints_best d none maxOrder m h
  obtain ⟨h1, h2⟩ := C73_choice _ _ none maxOrder plain (some false) (List.length_pos_of_ne_nil hd) rfl rfl m h
  rcases h1.2 with h3 | ⟨-, h3, h4⟩
  · cases h3
  refine ⟨m.order, h3, h4, hb, ?_⟩
  rcases h2 with h2 | ⟨score, h2, h5⟩
  · left
    have a := (h2 false 2 ⟨Or.inr rfl, Or.inr ⟨rfl, le_rfl, h3.trans h4⟩⟩).2
    have b := (h2 false maxOrder ⟨Or.inr rfl, Or.inr ⟨rfl, h3.trans h4, le_rfl⟩⟩).2
    omega
  · right
    rw [hs] at h2
    exact ⟨score, h2, fun o' a b hdet score' hsc => h5 false o' ⟨Or.inr rfl, Or.inr ⟨rfl, a, b⟩⟩ hdet score' hsc⟩

theorem fitsGibbs_ok (gs : List (List (ℝ × ℝ))) (hg : ∀ g ∈ gs, g ≠ []) (temps : List ℝ) (maxOrder : ℕ)
    (fits : List (ℝ × Fitted)) (h : fitsGibbs gs temps maxOrder = .ok fits) :
    GibbsFits maxOrder gs temps (fits.map fun m => (m.1, m.2.eval)) := by
  unfold fitsGibbs at h
  rw [mapM_iff] at h
  unfold GibbsFits
  rw [List.forall₂_map_right_iff]
  have hz : ∀ p ∈ temps.zip gs, p.2 ≠ [] := fun p hp => hg _ (List.of_mem_zip hp).2
  revert h hz
  generalize temps.zip gs = l
  intro h hz
  induction h with
  | nil => exact .nil
  | @cons a b l r hab _ ih =>
    refine .cons ?_ (ih fun p hp => hz p (by simp [hp]))
    cases hf : fitPoints a.2 none maxOrder with
    | error e =>
      simp only [hf] at hab
      cases hab
    | ok m =>
      rw [hf] at hab
      simp only [Except.map, Except.ok.injEq] at hab
      subst hab
      exact ⟨rfl, fitPoints_chosen _ (hz a (by simp)) _ _ hf⟩

theorem isobar_eq (fits : List (ℝ × Fitted)) (p : ℝ) :
    isobar fits p = atPressure (fits.map fun m => (m.1, m.2.eval)) p := by
  unfold isobar atPressure
  rw [List.map_map]
  rfl

theorem boundaryLoop_ok (solve : Solver) (fits1 fits2 : List (ℝ × Fitted)) (ps : List ℝ) (b : List (ℝ × ℝ))
    (h : boundaryLoop solve fits1 fits2 ps = .ok b) :
    (b.map Prod.fst).Sublist ps ∧
    (∀ p tc, (p, tc) ∈ b ↔ p ∈ ps ∧ -(1 / 100000) < p ∧
      findTransition solve (isobar fits1 p) (isobar fits2 p) = .ok tc ∧ 0 < tc) ∧
    ∀ p ∈ ps, -(1 / 100000) < p → ∃ tc, findTransition solve (isobar fits1 p) (isobar fits2 p) = .ok tc := by
  induction ps generalizing b with
  | nil =>
    simp only [boundaryLoop, Except.ok.injEq] at h
    subst h
    simp
  | cons a ps ih =>
    rw [boundaryLoop] at h
    by_cases ha : -(1 / 100000) < a
    · rw [if_pos ha] at h
      simp only [bind, Except.bind, pure, Except.pure] at h
      cases h1 : findTransition solve (isobar fits1 a) (isobar fits2 a) with
      | error e => simp [h1] at h
      | ok tc =>
        cases h2 : boundaryLoop solve fits1 fits2 ps with
        | error e => simp [h1, h2] at h
        | ok rest =>
          simp only [h1, h2, Except.ok.injEq] at h
          subst h
          obtain ⟨i1, i2, i3⟩ := ih rest h2
          refine ⟨?_, ?_, ?_⟩
          · split_ifs
            · exact i1.cons_cons a
            · exact i1.cons a
          · intro p t
            have key : (p, t) ∈ (if 0 < tc then (a, tc) :: rest else rest) ↔
                (p = a ∧ t = tc ∧ 0 < tc) ∨ (p, t) ∈ rest := by
              split_ifs with h0 <;> simp [h0]
            rw [key, i2]
            constructor
            · rintro (⟨rfl, rfl, h0⟩ | ⟨x, y⟩)
              · exact ⟨by simp, ha, h1, h0⟩
              · exact ⟨by simp [x], y⟩
            · rintro ⟨x, y, z, w⟩
              rcases List.mem_cons.1 x with rfl | x
              · rw [h1, Except.ok.injEq] at z
                exact Or.inl ⟨rfl, z.symm, z ▸ w⟩
              · exact Or.inr ⟨x, y, z, w⟩
          · intro p hp h0
            rcases List.mem_cons.1 hp with rfl | hp
            · exact ⟨tc, h1⟩
            · exact i3 p hp h0
    · rw [if_neg ha] at h
      obtain ⟨i1, i2, i3⟩ := ih b h
      refine ⟨i1.cons a, ?_, ?_⟩
      · intro p t
        rw [i2]
        constructor
        · rintro ⟨x, y⟩
          exact ⟨by simp [x], y⟩
        · rintro ⟨x, y, z⟩
          rcases List.mem_cons.1 x with rfl | x
          · exact absurd y ha
          · exact ⟨x, y, z⟩
      · intro p hp h0
        rcases List.mem_cons.1 hp with rfl | hp
        · exact absurd h0 ha
        · exact i3 p hp h0

/-- **C93, phase boundaries.**  A phase boundary lists the pressures of the grid from zero on whose transition
temperature is positive, in increasing order, each with the temperature of the transition between the Gibbs free
energies of the two phases at this pressure; these are polynomials of least squares for every temperature. -/
theorem C93_boundary (solve : Solver) (g1 g2 : List (List (ℝ × ℝ))) (t1 t2 : List ℝ) (interval : ℝ) (maxOrder : ℕ)
    (hi : 0 < interval) (b : List (ℝ × ℝ)) (h : phaseBoundary solve g1 t1 g2 t2 interval maxOrder = .ok b) :
    BoundaryOf solve g1 t1 g2 t2 interval maxOrder b := by
  unfold phaseBoundary at h
  simp only [bind, Except.bind] at h
  cases e1 : maxPressure g1 with
  | error e => simp [e1] at h
  | ok m1 =>
    cases e2 : maxPressure g2 with
    | error e => simp [e1, e2] at h
    | ok m2 =>
      have e3 : pressures (min (m1 * (8 / 10)) (m2 * (8 / 10))) interval =
          .ok (Eos.arange (-3) (min (m1 * (8 / 10)) (m2 * (8 / 10))) interval) := by
        unfold pressures
        rw [if_neg hi.ne']
      cases e4 : fitsGibbs g1 t1 maxOrder with
      | error e => simp [e1, e2, e3, e4] at h
      | ok fits1 =>
        cases e5 : fitsGibbs g2 t2 maxOrder with
        | error e => simp [e1, e2, e3, e4, e5] at h
        | ok fits2 =>
          simp only [e1, e2, e3, e4, e5] at h
          obtain ⟨p1, n1⟩ := maxPressure_ok g1 m1 e1
          obtain ⟨p2, n2⟩ := maxPressure_ok g2 m2 e2
          obtain ⟨i1, i2, i3⟩ := boundaryLoop_ok _ _ _ _ _ h
          have hm : min (m1 * (8 / 10)) (m2 * (8 / 10)) = 8 / 10 * min m1 m2 := by
            rw [min_mul_of_nonneg m1 m2 (by norm_num : (0 : ℝ) ≤ 8 / 10) |>.symm, mul_comm]
          rw [hm] at i1 i2 i3
          have hmem : ∀ p, p ∈ Eos.arange (-3) (8 / 10 * min m1 m2) interval ↔
              (∃ k : ℕ, p = -3 + k * interval) ∧ p < 8 / 10 * min m1 m2 := by
            intro p
            rw [Eos.mem_arange hi]
            constructor
            · rintro ⟨k, a, b⟩
              exact ⟨⟨k, a⟩, b⟩
            · rintro ⟨⟨k, a⟩, b⟩
              exact ⟨k, a, b⟩
          refine ⟨m1, m2, _, _, p1, p2, fitsGibbs_ok g1 n1 t1 maxOrder fits1 e4, fitsGibbs_ok g2 n2 t2 maxOrder fits2 e5,
            ?_, ?_, ?_⟩
          · have := (Eos.sorted_arange (a := -3) (b := 8 / 10 * min m1 m2) hi).sublist i1
            rw [List.pairwise_map] at this
            exact this
          · intro p tc
            rw [i2, hmem, isobar_eq, isobar_eq, C93_transition]
            exact ⟨fun ⟨⟨a, b⟩, c, d, e⟩ => ⟨a, b, c, d, e⟩, fun ⟨a, b, c, d, e⟩ => ⟨⟨a, b⟩, c, d, e⟩⟩
          · intro p hk hp h0
            obtain ⟨tc, h⟩ := i3 p ((hmem p).2 ⟨hk, hp⟩) h0
            rw [isobar_eq, isobar_eq, C93_transition] at h
            exact ⟨tc, h⟩

/-- **C93, violated**: pressures are counted from -3 GPa, and if the interval does not divide 3 GPa the phase boundary has
no entry for zero pressure. -/
theorem C93_zero_pressure_violation (solve : Solver) (g1 g2 : List (List (ℝ × ℝ))) (t1 t2 : List ℝ) (maxOrder : ℕ)
    (b : List (ℝ × ℝ)) (h : phaseBoundary solve g1 t1 g2 t2 (7 / 10) maxOrder = .ok b) (tc : ℝ) : (0, tc) ∉ b := by
  intro hm
  obtain ⟨m1, m2, f1, f2, -, -, -, -, -, h2, -⟩ := C93_boundary solve g1 g2 t1 t2 _ _ (by norm_num) b h
  obtain ⟨⟨k, hk⟩, -⟩ := (h2 0 tc).1 hm
  have : ((7 * k : ℕ) : ℝ) = ((30 : ℕ) : ℝ) := by
    push_cast
    linarith
  have := Nat.cast_injective this
  omega

theorem fitPoints_two (d : List (ℝ × ℝ)) (hd : d.Pairwise fun p q => p.1 < q.1) (hl : 3 ≤ d.length) :
    ∃ m, fitPoints d none 2 = .ok m := by
  have hdet := gram_det_ne (fun i : Fin d.length => (d.get i).1) (curve_injective d hd) 2 hl
  have ho : orderList none 2 = [2] := rfl
  unfold fitPoints Polyfit.fit choose
  rw [ho]
  simp only [sqrtList, chooseFrom, bind, Except.bind]
  unfold fitSingle
  have : ¬ (((plain.weightBegin = true) ∨ plain.weightEnd = true) ∧ d.length < 4) := by simp
  simp only [this, if_false]
  rw [if_neg hdet]
  exact ⟨_, rfl⟩

/-- Gibbs free energies at two temperatures; at the first one the pressures end at 1 GPa, at the second one at 10 GPa. -/
def exGibbs : List (List (ℝ × ℝ)) := [[(-5, 0), (0, 0), (1, 0)], [(-5, 0), (0, 0), (10, 0)]]

theorem exRun (interval : ℝ) (hi : 0 < interval) :
    ∃ b, phaseBoundary (fun _ _ => 1) exGibbs [0, 1] exGibbs [0, 1] interval 2 = .ok b := by
  have hmax : maxPressure exGibbs = .ok 10 := by
    simp [maxPressure, exGibbs, maxOf, bind, Except.bind, pure, Except.pure]
  obtain ⟨m1, h1⟩ := fitPoints_two [(-5, 0), (0, 0), (1, 0)] (by simp; norm_num) (by simp)
  obtain ⟨m2, h2⟩ := fitPoints_two [(-5, 0), (0, 0), (10, 0)] (by simp; norm_num) (by simp)
  have hf : fitsGibbs exGibbs [0, 1] 2 = .ok [(0, m1), (1, m2)] := by
    simp [fitsGibbs, exGibbs, h1, h2, bind, Except.bind, pure, Except.pure, Except.map]
  have hloop : ∀ ps, ∃ b, boundaryLoop (fun _ _ => 1) [(0, m1), (1, m2)] [(0, m1), (1, m2)] ps = .ok b := by
    intro ps
    induction ps with
    | nil => exact ⟨[], rfl⟩
    | cons p ps ih =>
      obtain ⟨b, hb⟩ := ih
      rw [boundaryLoop]
      have hc : Curve (isobar [(0, m1), (1, m2)] p) := two_curve _ _ _ _ one_pos
      obtain ⟨tc, ht⟩ := transition_exists (fun _ _ => 1) _ _ hc hc
      split_ifs
      · simp only [bind, Except.bind, pure, Except.pure, ht, hb]
        exact ⟨_, rfl⟩
      · exact ⟨b, hb⟩
  unfold phaseBoundary pressures
  simp only [bind, Except.bind, hmax, hf, if_neg hi.ne']
  exact hloop _

/-- **C93, violated**: a phase boundary can contain a pressure beyond all pressures at one of the temperatures. -/
theorem C93_pressure_violation : ∃ (solve : Solver) (g : List (List (ℝ × ℝ))) (t : List ℝ) (b : List (ℝ × ℝ)) (p tc : ℝ),
    phaseBoundary solve g t g t 1 2 = .ok b ∧ (p, tc) ∈ b ∧ ∃ x ∈ g, ∀ y ∈ x, y.1 < p := by
  obtain ⟨b, hb⟩ := exRun 1 one_pos
  obtain ⟨m1, m2, f1, f2, a1, a2, -, -, -, h2, h3⟩ := C93_boundary _ _ _ _ _ _ _ one_pos b hb
  have top : ∀ m, TopPressure exGibbs m → 10 ≤ m := by
    intro m hm
    exact hm.2 [(-5, 0), (0, 0), (10, 0)] (by simp [exGibbs]) (10, 0) (by simp)
  have hlt : (2 : ℝ) < 8 / 10 * min m1 m2 := by
    have := le_min (top m1 a1) (top m2 a2)
    linarith
  have hk : ∃ k : ℕ, (2 : ℝ) = -3 + k * 1 := ⟨5, by norm_num⟩
  obtain ⟨tc, ht⟩ := h3 2 hk hlt (by norm_num)
  have h1 : tc = 1 := ht.2.2.choose_spec.choose_spec.choose_spec.choose_spec.2.2.2.2
  refine ⟨_, exGibbs, _, b, 2, tc, hb, (h2 2 tc).2 ⟨hk, hlt, by norm_num, ht, by rw [h1]; exact one_pos⟩,
    [(-5, 0), (0, 0), (1, 0)], by simp [exGibbs], ?_⟩
  intro y hy
  simp only [List.mem_cons, List.not_mem_nil, or_false] at hy
  rcases hy with rfl | rfl | rfl <;> norm_num

example : ∃ b, phaseBoundary (fun _ _ => 1) exGibbs [0, 1] exGibbs [0, 1] (7 / 10) 2 = .ok b := exRun _ (by norm_num)

/-- A phase boundary between two files is the one of the Gibbs free energies and temperatures of the two sources. -/
theorem C93_files_boundary (toGPa ev : ℝ) (solve : Solver) (s1 s2 : Source) (h1 : OnTemps s1) (h2 : OnTemps s2)
    (t1 : s1.temps ≠ []) (t2 : s2.temps ≠ []) (interval : ℝ) (hi : 0 < interval) (maxOrder : ℕ) (b : List (ℝ × ℝ))
    (h : boundaryOf solve (save toGPa ev s1).1 (save toGPa ev s2).1 interval maxOrder = .ok b) :
    ∃ q1 q2, LoadedAs toGPa ev s1 q1 ∧ LoadedAs toGPa ev s2 q2 ∧
      BoundaryOf solve q1.gibbs s1.temps q2.gibbs s2.temps interval maxOrder b := by
  unfold boundaryOf at h
  simp only [bind, Except.bind] at h
  cases r1 : load (save toGPa ev s1).1 with
  | error e => simp [r1] at h
  | ok q1 =>
    cases r2 : load (save toGPa ev s2).1 with
    | error e => simp [r1, r2] at h
    | ok q2 =>
      simp only [r1, r2] at h
      have l1 := (C93_load s1 h1 t1).2 q1 r1
      have l2 := (C93_load s2 h2 t2).2 q2 r2
      refine ⟨q1, q2, l1, l2, ?_⟩
      rw [l1.temperatures, l2.temperatures] at h
      exact C93_boundary solve _ _ _ _ _ _ hi b h

end Verif.Transition
