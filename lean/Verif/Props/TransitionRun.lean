import Verif.Props.Transition
import Verif.Props.Polyfit

/-!
# C93: transitions and phase boundaries
-/

namespace Verif.Transition

open Verif.Spec Verif.Vasprun Verif.Polyfit

/-! ### Curves of straight lines -/

theorem polyline_cons (p q : ℝ × ℝ) (rest : List (ℝ × ℝ)) (t : ℝ) (h : rest = [] ∨ t < q.1) :
    polyline (p :: q :: rest) t = p.2 + (q.2 - p.2) / (q.1 - p.1) * (t - p.1) := by
  rw [polyline, if_pos h]

theorem polyline_tail (p q : ℝ × ℝ) (rest : List (ℝ × ℝ)) (t : ℝ) (h : rest ≠ []) (ht : q.1 ≤ t) :
    polyline (p :: q :: rest) t = polyline (q :: rest) t := by
  rw [polyline, if_neg]
  rintro (h1 | h1)
  · exact h h1
  · exact absurd h1 (not_lt.2 ht)

theorem polyline_start (p q : ℝ × ℝ) (rest : List (ℝ × ℝ)) (h : p.1 < q.1) :
    polyline (p :: q :: rest) p.1 = p.2 := by
  rw [polyline_cons _ _ _ _ (Or.inr h)]
  simp

theorem polyline_spec (d : List (ℝ × ℝ)) (hd : d.Pairwise fun p q => p.1 < q.1) : Polyline d (polyline d) := by
  induction d with
  | nil => intro i p q t h; simp at h
  | cons a d ih =>
    rw [List.pairwise_cons] at hd
    intro i p q t hp hq h1 h2
    cases d with
    | nil => simp at hq
    | cons b rest =>
      cases i with
      | zero =>
        simp only [List.getElem?_cons_zero, Option.some.injEq, zero_add, List.getElem?_cons_succ] at hp hq
        subst hp
        subst hq
        by_cases hr : rest = []
        · exact polyline_cons _ _ _ _ (Or.inl hr)
        · have ht : t ≤ b.1 := by
            rcases h2 with h2 | h2
            · simp only [List.length_cons, zero_add] at h2
              exact absurd (List.eq_nil_of_length_eq_zero (by omega)) hr
            · exact h2
          rcases lt_or_eq_of_le ht with ht | ht
          · exact polyline_cons _ _ _ _ (Or.inr ht)
          · obtain ⟨c, r, rfl⟩ := List.exists_cons_of_ne_nil hr
            rw [polyline_tail _ _ _ _ (by simp) ht.ge, ht]
            have h3 : b.1 < c.1 := (List.pairwise_cons.1 hd.2).1 c (by simp)
            rw [polyline_start _ _ _ h3]
            have h4 : a.1 < b.1 := hd.1 b (by simp)
            have : b.1 - a.1 ≠ 0 := by linarith
            field_simp
            ring
      | succ i =>
        simp only [List.getElem?_cons_succ] at hp hq
        have hr : rest ≠ [] := by
          rintro rfl
          simp at hq
        have hpt : p.1 ≤ t := by
          rcases h1 with h1 | h1
          · cases h1
          · exact h1
        have hbp : b.1 ≤ p.1 := by
          cases i with
          | zero =>
            simp only [List.getElem?_cons_zero, Option.some.injEq] at hp
            rw [hp]
          | succ i =>
            simp only [List.getElem?_cons_succ] at hp
            exact ((List.pairwise_cons.1 hd.2).1 p (List.mem_of_getElem? hp)).le
        rw [polyline_tail _ _ _ _ hr (hbp.trans hpt)]
        refine ih hd.2 i p q t hp hq (Or.inr hpt) ?_
        rcases h2 with h2 | h2
        · left
          simp only [List.length_cons] at h2 ⊢
          omega
        · exact Or.inr h2

theorem segment_exists (d : List (ℝ × ℝ)) (hl : 2 ≤ d.length) (t : ℝ) :
    ∃ (i : ℕ) (p q : ℝ × ℝ), d[i]? = some p ∧ d[i + 1]? = some q ∧ (i = 0 ∨ p.1 ≤ t) ∧ (i + 2 = d.length ∨ t ≤ q.1) := by
  induction d with
  | nil => simp at hl
  | cons a d ih =>
    cases d with
    | nil => simp at hl
    | cons b rest =>
      by_cases hr : rest = [] ∨ t ≤ b.1
      · refine ⟨0, a, b, rfl, rfl, Or.inl rfl, ?_⟩
        rcases hr with rfl | hr
        · left; rfl
        · exact Or.inr hr
      · push Not at hr
        obtain ⟨hr, hb⟩ := hr
        obtain ⟨i, p, q, h1, h2, h3, h4⟩ := ih (by
          obtain ⟨c, r, rfl⟩ := List.exists_cons_of_ne_nil hr
          simp)
        refine ⟨i + 1, p, q, by simpa using h1, by simpa using h2, Or.inr ?_, ?_⟩
        · rcases h3 with rfl | h3
          · simp only [List.getElem?_cons_zero, Option.some.injEq] at h1
            rw [← h1]
            exact hb.le
          · exact h3
        · rcases h4 with h4 | h4
          · left
            simp only [List.length_cons] at h4 ⊢
            omega
          · exact Or.inr h4

theorem polyline_unique (d : List (ℝ × ℝ)) (hd : Curve d) (g h : ℝ → ℝ) (hg : Polyline d g) (hh : Polyline d h) : g = h := by
  funext t
  obtain ⟨i, p, q, h1, h2, h3, h4⟩ := segment_exists d hd.1 t
  rw [hg i p q t h1 h2 h3 h4, hh i p q t h1 h2 h3 h4]

theorem polyline_at (d : List (ℝ × ℝ)) (hd : Curve d) (g : ℝ → ℝ) (hg : Polyline d g) (i : ℕ) (p : ℝ × ℝ)
    (hp : d[i]? = some p) : g p.1 = p.2 := by
  have hi : i < d.length := by
    by_contra hc
    rw [List.getElem?_eq_none (by omega)] at hp
    cases hp
  by_cases h : i + 1 < d.length
  · rw [hg i p d[i + 1] p.1 hp (List.getElem?_eq_getElem h) (Or.inr le_rfl) (Or.inr ?_)]
    · simp
    · have := List.pairwise_iff_getElem.1 hd.2 i (i + 1) hi h (by omega)
      rw [List.getElem?_eq_getElem hi, Option.some.injEq] at hp
      rw [hp] at this
      exact this.le
  · have hl := hd.1
    obtain ⟨k, rfl⟩ : ∃ k, i = k + 1 := ⟨i - 1, by omega⟩
    have hk : k < d.length := by omega
    have h3 := List.pairwise_iff_getElem.1 hd.2 k (k + 1) hk hi (by omega)
    have hp' := hp
    rw [List.getElem?_eq_getElem hi, Option.some.injEq] at hp'
    rw [hp'] at h3
    rw [hg k d[k] p p.1 (List.getElem?_eq_getElem hk) hp (Or.inr h3.le) (Or.inr le_rfl)]
    have : p.1 - d[k].1 ≠ 0 := by linarith
    field_simp
    ring

theorem spline_ok (d : List (ℝ × ℝ)) (g : ℝ → ℝ) : spline d = .ok g ↔ Curve d ∧ Polyline d g := by
  have hc : ((d.map Prod.fst).IsChain (· < ·) ∧ 2 ≤ d.length) ↔ Curve d := by
    unfold Curve
    rw [List.isChain_iff_pairwise, List.pairwise_map, and_comm]
  unfold spline
  by_cases h : Curve d
  · rw [if_pos (hc.2 h), Except.ok.injEq]
    constructor
    · rintro rfl
      exact ⟨h, polyline_spec d h.2⟩
    · rintro ⟨-, h2⟩
      exact polyline_unique d h _ _ (polyline_spec d h.2) h2
  · rw [if_neg fun hh => h (hc.1 hh)]
    simp [h]

/-! ### Best polynomials -/

theorem adjust_length (L : List ℝ) (h : L ≠ []) : (adjustCoeffs L true true).length = L.length := by
  unfold adjustCoeffs
  have := List.length_pos_of_ne_nil h
  simp
  omega

abbrev plain : Flags := ⟨true, true, false, false, false⟩

theorem weights_plain (n : ℕ) : weights n plain = fun _ => 1 := by
  funext i
  simp [weights]

theorem nFeat_plain (o : ℕ) : nFeat o plain = o + 1 := by
  unfold nFeat
  rw [powers_length]
  simp

theorem gram_det_ne {n : ℕ} (x : Fin n → ℝ) (hx : Function.Injective x) (o : ℕ) (ho : o < n) :
    (gram (weights n plain) (design x o plain)).det ≠ 0 := by
  intro h
  obtain ⟨v, hv, hz⟩ := Matrix.exists_mulVec_eq_zero_iff.2 h
  have h1 := gram_dot (weights n plain) (design x o plain) v v
  rw [hz, zero_dotProduct, weights_plain] at h1
  simp only [one_mul] at h1
  have h2 : ∀ k, (design x o plain).mulVec v k = 0 := by
    intro k
    have := (Finset.sum_eq_zero_iff_of_nonneg (fun k _ => mul_self_nonneg _)).1 h1 k (Finset.mem_univ k)
    exact mul_self_eq_zero.1 this
  have hlen : (List.ofFn v).length = nFeat o plain := by simp
  have h3 : ∀ t, dot (List.ofFn v) (features o plain t) = polyval (adjustCoeffs (List.ofFn v) true true) t := by
    intro t
    rw [← eval_eq o plain _ hlen t]
    simp [Fitted.eval]
  have h4 : toPoly (adjustCoeffs (List.ofFn v) true true) = 0 := by
    refine Polynomial.eq_zero_of_natDegree_lt_card_of_eval_eq_zero _ hx (fun k => ?_) ?_
    · rw [toPoly_eval, ← h3, ← mulVec_design]
      exact h2 k
    · rw [Fintype.card_fin]
      refine lt_of_le_of_lt ?_ ho
      rw [Polynomial.natDegree_le_iff_coeff_eq_zero]
      intro N hN
      apply toPoly_coeff
      rw [adjust_length _ (by
        intro h
        rw [h, nFeat_plain] at hlen
        simp at hlen), hlen, nFeat_plain]
      exact hN
  have h5 := independent o plain (List.ofFn v) hlen fun t => by
    rw [h3, ← toPoly_eval, h4, Polynomial.eval_zero]
  apply hv
  funext j
  exact h5 (v j) (List.mem_ofFn.2 ⟨j, rfl⟩)

theorem best_unique {n : ℕ} (x y : Fin n → ℝ) (hx : Function.Injective x) (o : ℕ) (ho : o < n) (g h : ℝ → ℝ)
    (hg : BestFit (Family o true true false) x y (fun _ => 1) g)
    (hh : BestFit (Family o true true false) x y (fun _ => 1) h) : g = h := by
  obtain ⟨c, hc, lc⟩ := of_bestFit x y _ o plain g hg
  obtain ⟨d, hd, ld⟩ := of_bestFit x y _ o plain h hh
  rw [leastSq_iff _ (fun _ => zero_le_one)] at lc ld
  have h1 : ∀ e, ∑ k, (1 : ℝ) * (design x o plain).mulVec (c - d) k * (design x o plain).mulVec e k = 0 := by
    intro e
    have a := lc e
    have b := ld e
    have : ∀ k, (1 : ℝ) * (design x o plain).mulVec (c - d) k * (design x o plain).mulVec e k =
        1 * ((design x o plain).mulVec c k - y k) * (design x o plain).mulVec e k -
          1 * ((design x o plain).mulVec d k - y k) * (design x o plain).mulVec e k := by
      intro k
      rw [Matrix.mulVec_sub]
      simp only [Pi.sub_apply]
      ring
    simp only [this, Finset.sum_sub_distrib, a, b, sub_self]
  have h2 : (gram (fun _ => 1) (design x o plain)).mulVec (c - d) = 0 := by
    funext j
    have := h1 (Pi.single j 1)
    rw [gram_dot (fun _ => 1)] at this
    simpa using this
  have h3 : c - d = 0 := by
    by_contra hne
    have := Matrix.exists_mulVec_eq_zero_iff.1 ⟨c - d, hne, h2⟩
    rw [← weights_plain] at this
    exact gram_det_ne x hx o ho this
  have h4 : c = d := sub_eq_zero.1 h3
  funext t
  rw [hc, hd, h4]

theorem curve_injective (d : List (ℝ × ℝ)) (hd : d.Pairwise fun p q => p.1 < q.1) :
    Function.Injective fun i : Fin d.length => (d.get i).1 := by
  intro i j h
  dsimp only at h
  rcases lt_trichotomy i j with hij | hij | hij
  · have := List.pairwise_iff_getElem.1 hd i.val j.val i.isLt j.isLt hij
    simp only [List.get_eq_getElem] at h
    linarith
  · exact hij
  · have := List.pairwise_iff_getElem.1 hd j.val i.val j.isLt i.isLt hij
    simp only [List.get_eq_getElem] at h
    linarith

theorem endWeight_plain (n : ℕ) : endWeight n false false = fun _ => 1 := by
  funext i
  simp [endWeight]

theorem fitPoints_best (d : List (ℝ × ℝ)) (order : Option ℕ) (maxOrder : ℕ) (m : Fitted)
    (h : fitPoints d order maxOrder = .ok m) : BestPolynomial m.order d m.eval ∧ m.addSqrt = false ∧
      (∀ t, m.eval t = polyval m.coeffs t) := by
  have h1 := C73_best _ _ _ _ _ _ m h
  obtain ⟨co, h2, -, -⟩ := fit_ok _ _ _ _ _ _ m h
  have hs : m.addSqrt = false := by
    rcases choose_spec (n := d.length) (fun i => (d.get i).1) (fun i => (d.get i).2) order maxOrder plain (some false)
      rfl rfl with ⟨s, o, h3, h4, -⟩ | ⟨s, o, cv, h3, h4, -⟩ | ⟨h3, -⟩
    · rw [h2] at h3
      simp only [Except.ok.injEq, Option.some.injEq, Prod.mk.injEq] at h3
      rcases h4.1 with h5 | h5
      · cases h5
      · rw [h3.1]
        simpa using h5.symm
    · rw [h2] at h3
      simp only [Except.ok.injEq, Option.some.injEq, Prod.mk.injEq] at h3
      rcases h4.1 with h5 | h5
      · cases h5
      · rw [h3.1]
        simpa using h5.symm
    · rw [h2] at h3
      simp at h3
  refine ⟨?_, hs, fun t => ?_⟩
  · unfold BestPolynomial
    rw [hs, endWeight_plain] at h1
    exact h1
  · simp [Fitted.eval, hs]

theorem fitPoints_one (d : List (ℝ × ℝ)) (hd : Curve d) : ∃ m, fitPoints d (some 1) 6 = .ok m ∧ m.order = 1 := by
  have hdet := gram_det_ne (fun i : Fin d.length => (d.get i).1) (curve_injective d hd.2) 1 hd.1
  unfold fitPoints Polyfit.fit choose
  simp only [sqrtList, orderList, chooseFrom, bind, Except.bind]
  unfold fitSingle
  have : ¬ (((plain.weightBegin = true) ∨ plain.weightEnd = true) ∧ d.length < 4) := by simp
  simp only [this, if_false]
  rw [if_neg hdet]
  exact ⟨_, rfl, rfl⟩

theorem fitPoints_short (d : List (ℝ × ℝ)) (m : Fitted) (h : fitPoints d (some 1) 6 = .ok m) : m.order = 1 := by
  unfold fitPoints Polyfit.fit choose at h
  simp only [sqrtList, orderList, chooseFrom, bind, Except.bind] at h
  revert h
  generalize fitSingle _ _ _ _ = r
  intro h
  cases r with
  | error e => cases h
  | ok o =>
    cases o with
    | none => cases h
    | some c =>
      simp only [Except.ok.injEq] at h
      rw [← h]

theorem polyval_zeros (k : ℕ) (z : List ℝ) (x : ℝ) : polyval (List.replicate k 0 ++ z) x = polyval z x := by
  induction k with
  | zero => rfl
  | succ k ih => rw [List.replicate_succ, List.cons_append, polyval_cons, ih]; ring

theorem polyval_sub (z1 z2 : List ℝ) (h : z1.length = z2.length) (x : ℝ) :
    polyval (List.zipWith (· - ·) z1 z2) x = polyval z1 x - polyval z2 x := by
  induction z1 generalizing z2 with
  | nil =>
    cases z2 with
    | nil => simp [polyval]
    | cons => simp at h
  | cons a z1 ih =>
    cases z2 with
    | nil => simp at h
    | cons b z2 =>
      simp only [List.length_cons, Nat.add_right_cancel_iff] at h
      rw [List.zipWith_cons_cons, polyval_cons, polyval_cons, polyval_cons, ih z2 h, List.length_zipWith, h]
      simp only [min_self]
      ring

theorem polyval_subCoeffs (z1 z2 : List ℝ) (x : ℝ) : polyval (subCoeffs z1 z2) x = polyval z1 x - polyval z2 x := by
  unfold subCoeffs
  rw [polyval_sub _ _ (by simp; omega), polyval_zeros, polyval_zeros]

/-! ### The transition -/

/-- **C93, transitions.**  A temperature is reported exactly if both curves have at least two points and increasing
temperatures.  It is what the solver finds for the difference of the interpolated curves, started from the crossing of
the straight lines of least squares. -/
theorem C93_transition (solve : Solver) (f1 f2 : List (ℝ × ℝ)) (tc : ℝ) :
    findTransition solve f1 f2 = .ok tc ↔ TransitionOf solve f1 f2 tc := by
  unfold findTransition fitSolvePoly fitSolve
  constructor
  · intro h
    simp only [bind, Except.bind, pure, Except.pure] at h
    cases h1 : fitPoints f1 (some 1) 6 with
    | error e => simp [h1] at h
    | ok m1 =>
      cases h2 : fitPoints f2 (some 1) 6 with
      | error e => simp [h1, h2] at h
      | ok m2 =>
        cases h3 : spline f1 with
        | error e => simp [h1, h2, h3] at h
        | ok g1 =>
          cases h4 : spline f2 with
          | error e => simp [h1, h2, h3, h4] at h
          | ok g2 =>
            simp only [h1, h2, h3, h4, Except.ok.injEq] at h
            obtain ⟨c1, p1⟩ := (spline_ok _ _).1 h3
            obtain ⟨c2, p2⟩ := (spline_ok _ _).1 h4
            obtain ⟨b1, -, e1⟩ := fitPoints_best _ _ _ _ h1
            obtain ⟨b2, -, e2⟩ := fitPoints_best _ _ _ _ h2
            rw [fitPoints_short _ _ h1] at b1
            rw [fitPoints_short _ _ h2] at b2
            refine ⟨c1, c2, m1.eval, m2.eval, g1, g2, b1, b2, p1, p2, ?_⟩
            rw [← h]
            congr 2
            funext t
            rw [polyval_subCoeffs, e1, e2]
  · rintro ⟨c1, c2, l1, l2, g1, g2, b1, b2, p1, p2, rfl⟩
    obtain ⟨m1, h1, o1⟩ := fitPoints_one f1 c1
    obtain ⟨m2, h2, o2⟩ := fitPoints_one f2 c2
    obtain ⟨b1', -, e1⟩ := fitPoints_best _ _ _ _ h1
    obtain ⟨b2', -, e2⟩ := fitPoints_best _ _ _ _ h2
    rw [o1] at b1'
    rw [o2] at b2'
    have u1 := best_unique _ _ (curve_injective f1 c1.2) 1 c1.1 _ _ b1 b1'
    have u2 := best_unique _ _ (curve_injective f2 c2.2) 1 c2.1 _ _ b2 b2'
    simp only [bind, Except.bind, pure, Except.pure, h1, h2, (spline_ok _ _).2 ⟨c1, p1⟩, (spline_ok _ _).2 ⟨c2, p2⟩,
      Except.ok.injEq]
    congr 2
    funext t
    rw [polyval_subCoeffs, u1, u2, e1, e2]

/-- Every pair of curves has such a temperature. -/
theorem transition_exists (solve : Solver) (f1 f2 : List (ℝ × ℝ)) (h1 : Curve f1) (h2 : Curve f2) :
    ∃ tc, findTransition solve f1 f2 = .ok tc := by
  obtain ⟨m1, a1, -⟩ := fitPoints_one f1 h1
  obtain ⟨m2, a2, -⟩ := fitPoints_one f2 h2
  unfold findTransition fitSolvePoly fitSolve
  simp only [bind, Except.bind, pure, Except.pure, a1, a2, (spline_ok _ _).2 ⟨h1, polyline_spec f1 h1.2⟩,
    (spline_ok _ _).2 ⟨h2, polyline_spec f2 h2.2⟩]
  exact ⟨_, rfl⟩

/-- **C93, transitions.**  If the solver finds a zero, the interpolated free energies of the two phases are equal at the
reported temperature. -/
theorem C93_equal (solve : Solver) (f1 f2 : List (ℝ × ℝ)) (tc : ℝ) (h : findTransition solve f1 f2 = .ok tc)
    (hs : ∀ g1 g2, Polyline f1 g1 → Polyline f2 g2 → ∀ t0,
      g1 (solve (fun t => g1 t - g2 t) t0) - g2 (solve (fun t => g1 t - g2 t) t0) = 0)
    (g1 g2 : ℝ → ℝ) (h1 : Polyline f1 g1) (h2 : Polyline f2 g2) : g1 tc = g2 tc := by
  obtain ⟨c1, c2, l1, l2, k1, k2, -, -, p1, p2, rfl⟩ := (C93_transition solve f1 f2 tc).1 h
  rw [polyline_unique f1 c1 _ _ h1 p1, polyline_unique f2 c2 _ _ h2 p2]
  exact sub_eq_zero.1 (hs k1 k2 p1 p2 _)

theorem mix_neg {a b x : ℝ} (ha : a < 0) (hb : b < 0) (h0 : 0 ≤ x) (h1 : x ≤ 1) : a + (b - a) * x < 0 := by
  rcases eq_or_lt_of_le h0 with h | h
  · rw [← h]
    linarith
  · have e1 : b * x < 0 := mul_neg_of_neg_of_pos hb h
    have e2 : a * (1 - x) ≤ 0 := mul_nonpos_of_nonpos_of_nonneg ha.le (by linarith)
    linarith [show a + (b - a) * x = a * (1 - x) + b * x by ring]

/-- **C93, transitions.**  If the free energies are given at the same temperatures, the first phase is more stable up to
one of them and the second phase from the next one on, then a reported temperature in the range of the data lies
between these two, where the straight lines cross. -/
theorem C93_crossing (solve : Solver) (f1 f2 : List (ℝ × ℝ)) (tc : ℝ) (h : findTransition solve f1 f2 = .ok tc)
    (hs : ∀ g1 g2, Polyline f1 g1 → Polyline f2 g2 → ∀ t0,
      g1 (solve (fun t => g1 t - g2 t) t0) - g2 (solve (fun t => g1 t - g2 t) t0) = 0)
    (hT : f1.map Prod.fst = f2.map Prod.fst) (i : ℕ)
    (hlow : ∀ (j : ℕ) p q, j ≤ i → f1[j]? = some p → f2[j]? = some q → p.2 < q.2)
    (hhigh : ∀ (j : ℕ) p q, i < j → f1[j]? = some p → f2[j]? = some q → q.2 < p.2)
    (hmin : ∃ p ∈ f1, p.1 ≤ tc) (hmax : ∃ p ∈ f1, tc ≤ p.1)
    (p q p' q' : ℝ × ℝ) (hp : f1[i]? = some p) (hq : f2[i]? = some q) (hp' : f1[i + 1]? = some p')
    (hq' : f2[i + 1]? = some q') :
    p.1 < tc ∧ tc < p'.1 ∧ tc = p.1 + (p'.1 - p.1) * ((q.2 - p.2) / ((q.2 - p.2) + (p'.2 - q'.2))) := by
  obtain ⟨c1, c2, -⟩ := (C93_transition solve f1 f2 tc).1 h
  have key := C93_equal solve f1 f2 tc h hs _ _ (polyline_spec f1 c1.2) (polyline_spec f2 c2.2)
  have hlen : f1.length = f2.length := by
    have := congrArg List.length hT
    simpa using this
  have hsame : ∀ (j : ℕ) a b, f1[j]? = some a → f2[j]? = some b → a.1 = b.1 := by
    intro j a b ha hb
    have := congrArg (fun l => l[j]?) hT
    simp only [List.getElem?_map, ha, hb, Option.map_some, Option.some.injEq] at this
    exact this
  have hlt : ∀ (j : ℕ) a b, f1[j]? = some a → f1[j + 1]? = some b → a.1 < b.1 := by
    intro j a b ha hb
    have hj : j < f1.length := by
      by_contra hc
      rw [List.getElem?_eq_none (by omega)] at ha
      cases ha
    have hj' : j + 1 < f1.length := by
      by_contra hc
      rw [List.getElem?_eq_none (by omega)] at hb
      cases hb
    have := List.pairwise_iff_getElem.1 c1.2 j (j + 1) hj hj' (by omega)
    rw [List.getElem?_eq_getElem hj, Option.some.injEq] at ha
    rw [List.getElem?_eq_getElem hj', Option.some.injEq] at hb
    rw [ha, hb] at this
    exact this
  obtain ⟨j, a, b, ha, hb, hj1, hj2⟩ := segment_exists f1 c1.1 tc
  have hatc : a.1 ≤ tc := by
    rcases hj1 with rfl | hj1
    · obtain ⟨m, hm, hmt⟩ := hmin
      obtain ⟨k, hk⟩ := List.mem_iff_getElem?.1 hm
      refine le_trans ?_ hmt
      cases k with
      | zero =>
        rw [hk, Option.some.injEq] at ha
        rw [ha]
      | succ k =>
        cases f1 with
        | nil => simp at ha
        | cons x xs =>
          simp only [List.getElem?_cons_zero, Option.some.injEq, List.getElem?_cons_succ] at ha hk
          subst ha
          exact ((List.pairwise_cons.1 c1.2).1 m (List.mem_of_getElem? hk)).le
    · exact hj1
  have htcb : tc ≤ b.1 := by
    rcases hj2 with hj2 | hj2
    · obtain ⟨m, hm, hmt⟩ := hmax
      obtain ⟨k, hk⟩ := List.mem_iff_getElem?.1 hm
      refine hmt.trans ?_
      have hk' : k < f1.length := by
        by_contra hc
        rw [List.getElem?_eq_none (by omega)] at hk
        cases hk
      by_cases hkj : k = j + 1
      · rw [hkj, hb, Option.some.injEq] at hk
        rw [hk]
      · have hj' : j + 1 < f1.length := by omega
        have := List.pairwise_iff_getElem.1 c1.2 k (j + 1) hk' hj' (by omega)
        rw [List.getElem?_eq_getElem hk', Option.some.injEq] at hk
        rw [List.getElem?_eq_getElem hj', Option.some.injEq] at hb
        rw [hk, hb] at this
        exact this.le
    · exact hj2
  have get2 : ∀ (k : ℕ) x, f1[k]? = some x → ∃ y, f2[k]? = some y := by
    intro k x hx
    have : k < f1.length := by
      by_contra hc
      rw [List.getElem?_eq_none (by omega)] at hx
      cases hx
    exact ⟨_, List.getElem?_eq_getElem (by omega)⟩
  obtain ⟨a2, ha2⟩ := get2 j a ha
  obtain ⟨b2, hb2⟩ := get2 (j + 1) b hb
  have e1 := hsame j a a2 ha ha2
  have e2 := hsame (j + 1) b b2 hb hb2
  have hab := hlt j a b ha hb
  have v1 := polyline_spec f1 c1.2 j a b tc ha hb (Or.inr hatc) (Or.inr htcb)
  have v2 := polyline_spec f2 c2.2 j a2 b2 tc ha2 hb2 (Or.inr (e1 ▸ hatc)) (Or.inr (e2 ▸ htcb))
  rw [v1, v2, ← e1, ← e2] at key
  have hd : (0 : ℝ) < b.1 - a.1 := by linarith
  have hx0 : 0 ≤ (tc - a.1) / (b.1 - a.1) := div_nonneg (by linarith) hd.le
  have hx1 : (tc - a.1) / (b.1 - a.1) ≤ 1 := by
    rw [div_le_one hd]
    linarith
  have key2 : (a.2 - a2.2) + ((b.2 - b2.2) - (a.2 - a2.2)) * ((tc - a.1) / (b.1 - a.1)) = 0 := by
    have : (a.2 - a2.2) + ((b.2 - b2.2) - (a.2 - a2.2)) * ((tc - a.1) / (b.1 - a.1)) =
        (a.2 + (b.2 - a.2) / (b.1 - a.1) * (tc - a.1)) - (a2.2 + (b2.2 - a2.2) / (b.1 - a.1) * (tc - a.1)) := by
      field_simp
      ring
    rw [this, key, sub_self]
  have hji : j = i := by
    by_contra hne
    rcases Nat.lt_or_gt_of_ne hne with hlt' | hgt
    · have n1 := hlow j a a2 (by omega) ha ha2
      have n2 := hlow (j + 1) b b2 (by omega) hb hb2
      have := mix_neg (a := a.2 - a2.2) (b := b.2 - b2.2) (by linarith) (by linarith) hx0 hx1
      linarith
    · have n1 := hhigh j a a2 hgt ha ha2
      have n2 := hhigh (j + 1) b b2 (by omega) hb hb2
      have := mix_neg (a := a2.2 - a.2) (b := b2.2 - b.2) (by linarith) (by linarith) hx0 hx1
      have h3 : (a2.2 - a.2) + ((b2.2 - b.2) - (a2.2 - a.2)) * ((tc - a.1) / (b.1 - a.1)) =
          -((a.2 - a2.2) + ((b.2 - b2.2) - (a.2 - a2.2)) * ((tc - a.1) / (b.1 - a.1))) := by ring
      rw [h3, key2] at this
      linarith
  subst hji
  rw [hp, Option.some.injEq] at ha
  rw [hq, Option.some.injEq] at ha2
  rw [hp', Option.some.injEq] at hb
  rw [hq', Option.some.injEq] at hb2
  subst ha ha2 hb hb2
  have n1 := hlow j p q le_rfl hp hq
  have n2 := hhigh (j + 1) p' q' (by omega) hp' hq'
  have hD : 0 < (q.2 - p.2) + (p'.2 - q'.2) := by linarith
  have hx : (tc - p.1) / (p'.1 - p.1) = (q.2 - p.2) / ((q.2 - p.2) + (p'.2 - q'.2)) := by
    rw [eq_div_iff hD.ne']
    linarith
  have htc : tc = p.1 + (p'.1 - p.1) * ((q.2 - p.2) / ((q.2 - p.2) + (p'.2 - q'.2))) := by
    rw [← hx]
    field_simp
    ring
  have hpos : 0 < (q.2 - p.2) / ((q.2 - p.2) + (p'.2 - q'.2)) := div_pos (by linarith) hD
  have hlt1 : (q.2 - p.2) / ((q.2 - p.2) + (p'.2 - q'.2)) < 1 := by
    rw [div_lt_one hD]
    linarith
  refine ⟨?_, ?_, htc⟩
  · rw [htc]
    nlinarith
  · rw [htc]
    nlinarith

/-! ### Violations -/

theorem two_curve (a b c d : ℝ) (h : a < c) : Curve [(a, b), (c, d)] := ⟨le_rfl, by simp [h]⟩

theorem two_line (a b c d : ℝ) (t : ℝ) : polyline [(a, b), (c, d)] t = b + (d - b) / (c - a) * (t - a) :=
  polyline_cons _ _ _ _ (Or.inl rfl)

/-- **C93, violated**: with any solver that finds zeros of straight lines, a transition at 3 K is reported for free
energies that are known up to 1 K only. -/
theorem C93_range_violation (solve : Solver)
    (hs : ∀ (a b t0 : ℝ), a ≠ 0 → a * solve (fun t => a * t + b) t0 + b = 0) :
    findTransition solve [(0, 0), (1, -1)] [(0, 3), (1, 1)] = .ok 3 := by
  obtain ⟨tc, h⟩ := transition_exists solve [(0, 0), (1, -1)] [(0, 3), (1, 1)] (two_curve _ _ _ _ one_pos)
    (two_curve _ _ _ _ one_pos)
  rw [h]
  congr 1
  obtain ⟨c1, c2, l1, l2, g1, g2, -, -, p1, p2, h2⟩ := (C93_transition _ _ _ _).1 h
  have e1 := polyline_unique _ c1 _ _ p1 (polyline_spec _ c1.2)
  have e2 := polyline_unique _ c2 _ _ p2 (polyline_spec _ c2.2)
  have e3 : (fun t => g1 t - g2 t) = fun t => 1 * t + (-3) := by
    funext t
    rw [e1, e2, two_line, two_line]
    ring
  rw [e3] at h2
  have := hs 1 (-3) (solve (fun t => l1 t - l2 t) 0) one_ne_zero
  rw [← h2] at this
  linarith

/-- **C93, violated**: a transition is reported, whatever the solver does, for two phases whose free energies never
meet. -/
theorem C93_parallel_violation (solve : Solver) : ∃ f1 f2 tc, findTransition solve f1 f2 = .ok tc ∧
    ∀ g1 g2, Polyline f1 g1 → Polyline f2 g2 → ∀ t, g1 t < g2 t := by
  have c1 := two_curve 0 0 1 (-1) one_pos
  have c2 := two_curve 0 1 1 0 one_pos
  obtain ⟨tc, h⟩ := transition_exists solve _ _ c1 c2
  refine ⟨_, _, tc, h, fun g1 g2 h1 h2 t => ?_⟩
  rw [polyline_unique _ c1 _ _ h1 (polyline_spec _ c1.2), polyline_unique _ c2 _ _ h2 (polyline_spec _ c2.2), two_line,
    two_line]
  linarith

/-- Non-vacuity of `C93_crossing`: a crossing at one half. -/
example (solve : Solver) (hs : ∀ (a b t0 : ℝ), a ≠ 0 → a * solve (fun t => a * t + b) t0 + b = 0) :
    findTransition solve [(0, 0), (1, 1)] [(0, 1), (1, 0)] = .ok (1 / 2) := by
  obtain ⟨tc, h⟩ := transition_exists solve [(0, 0), (1, 1)] [(0, 1), (1, 0)] (two_curve _ _ _ _ one_pos)
    (two_curve _ _ _ _ one_pos)
  rw [h]
  congr 1
  obtain ⟨c1, c2, l1, l2, g1, g2, -, -, p1, p2, h2⟩ := (C93_transition _ _ _ _).1 h
  have e1 := polyline_unique _ c1 _ _ p1 (polyline_spec _ c1.2)
  have e2 := polyline_unique _ c2 _ _ p2 (polyline_spec _ c2.2)
  have e3 : (fun t => g1 t - g2 t) = fun t => 2 * t + (-1) := by
    funext t
    rw [e1, e2, two_line, two_line]
    ring
  rw [e3] at h2
  have := hs 2 (-1) (solve (fun t => l1 t - l2 t) 0) two_ne_zero
  rw [← h2] at this
  linarith

/-- A transition between two files: it is the one of the free energies at equilibrium of the two sources. -/
theorem C93_files_transition (toGPa ev : ℝ) (solve : Solver) (s1 s2 : Source) (h1 : OnTemps s1) (h2 : OnTemps s2)
    (t1 : s1.temps ≠ []) (t2 : s2.temps ≠ []) (fits1 fits2 : List Eos.Fit) (f1 : FitsOf s1 fits1) (f2 : FitsOf s2 fits2)
    (q1 q2 : Properties) (r1 : load (save toGPa ev s1).1 = .ok q1) (r2 : load (save toGPa ev s2).1 = .ok q2) (tc : ℝ) :
    transitionOf solve (save toGPa ev s1).1 (save toGPa ev s2).1 = .ok tc ↔
      TransitionOf solve (s1.temps.zip (fits1.map fun e => e.e0)) (s2.temps.zip (fits2.map fun e => e.e0)) tc := by
  have same : ∀ (s : Source) (a b : List Eos.Fit), FitsOf s a → FitsOf s b → a = b := by
    intro s a b ha hb
    rw [FitsOf, ha] at hb
    simp only [Option.some.injEq] at hb
    exact (List.map_injective_iff.2 (Option.some_injective _)) hb
  have l1 := (C93_load s1 h1 t1).2 q1 r1
  have l2 := (C93_load s2 h2 t2).2 q2 r2
  obtain ⟨a1, x1, -, -, y1, -⟩ := l1.equilibrium
  obtain ⟨a2, x2, -, -, y2, -⟩ := l2.equilibrium
  unfold transitionOf
  simp only [bind, Except.bind, r1, r2]
  rw [C93_transition, l1.temperatures, l2.temperatures, y1, y2, same s1 _ _ x1 f1, same s2 _ _ x2 f2]

end Verif.Transition
