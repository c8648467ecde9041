import Verif.Model.MlpFn
import Verif.Props.MlpEval
import Mathlib.Analysis.SpecialFunctions.Trigonometric.Deriv
import Mathlib.Analysis.SpecialFunctions.ExpDeriv
import Mathlib.Analysis.SpecialFunctions.Sqrt
import Mathlib.Tactic.IntervalCases

/-!
# C57: forces and stress are derivatives of the energy
-/

namespace Verif.Mlp
open Verif.Neighbor (Vec Csr r2 mkCsr neighborHalf neighborFull fullRow inRange pairEntries)
open Real

/-! ## Radial functions -/

/-- The cutoff function is differentiable everywhere, also at the cutoff radius. -/
theorem hasDerivAt_cosCut (rc : ℝ) (hrc : 0 < rc) (r : ℝ) :
    HasDerivAt (fun x => cosCut x rc) (cosCutD r rc).2 r := by
  have hf : ∀ x, HasDerivAt (fun x => 0.5 * (cos (π * x / rc) + 1.0))
      (-0.5 * (π / rc) * sin (π / rc * x)) x := by
    intro x
    have h1 : HasDerivAt (fun x : ℝ => π * x / rc) (π / rc) x := by
      have := ((hasDerivAt_id x).const_mul π).div_const rc
      simpa using this
    have h2 := ((h1.cos).add_const (1.0 : ℝ)).const_mul (0.5 : ℝ)
    have e : (0.5 : ℝ) * (-sin (π * x / rc) * (π / rc)) = -0.5 * (π / rc) * sin (π / rc * x) := by
      rw [show π * x / rc = π / rc * x by ring]
      ring
    rw [e] at h2
    exact h2
  rcases lt_trichotomy r rc with h | h | h
  · have h1 := hf r
    have h2 : (cosCutD r rc).2 = -0.5 * (π / rc) * sin (π / rc * r) := by
      unfold cosCutD
      rw [if_pos h]
    rw [h2]
    refine h1.congr_of_eventuallyEq ?_
    filter_upwards [Iio_mem_nhds h] with x hx
    unfold cosCut
    rw [if_pos (Set.mem_Iio.1 hx)]
  · subst h
    have h2 : (cosCutD r r).2 = 0 := by
      unfold cosCutD
      rw [if_neg (lt_irrefl r)]
      norm_num
    rw [h2]
    have hne : r ≠ 0 := hrc.ne'
    have hval : -0.5 * (π / r) * sin (π / r * r) = 0 := by
      rw [div_mul_cancel₀ _ hne, sin_pi]; simp
    have hl : HasDerivWithinAt (fun x => cosCut x r) 0 (Set.Iic r) r := by
      have h1 := (hf r).hasDerivWithinAt (s := Set.Iic r)
      rw [hval] at h1
      refine h1.congr ?_ ?_
      · intro x hx
        rcases lt_or_eq_of_le (Set.mem_Iic.1 hx) with h | h
        · show cosCut x r = _
          unfold cosCut; rw [if_pos h]
        · subst h
          show cosCut x x = _
          unfold cosCut
          rw [if_neg (lt_irrefl x), mul_div_assoc, div_self hne, mul_one, cos_pi]
          norm_num
      · show cosCut r r = _
        unfold cosCut
        rw [if_neg (lt_irrefl r), mul_div_assoc, div_self hne, mul_one, cos_pi]
        norm_num
    have hr : HasDerivWithinAt (fun x => cosCut x r) 0 (Set.Ici r) r := by
      refine (hasDerivWithinAt_const r (Set.Ici r) (0 : ℝ)).congr ?_ ?_
      · intro x hx
        show cosCut x r = 0
        unfold cosCut
        rw [if_neg (not_lt.2 (Set.mem_Ici.1 hx))]
        norm_num
      · show cosCut r r = 0
        unfold cosCut
        rw [if_neg (lt_irrefl r)]
        norm_num
    have := hl.union hr
    rw [Set.Iic_union_Ici] at this
    exact this.hasDerivAt Filter.univ_mem
  · have h2 : (cosCutD r rc).2 = 0 := by
      unfold cosCutD
      rw [if_neg (not_lt.2 h.le)]
      norm_num
    rw [h2]
    refine (hasDerivAt_const r (0 : ℝ)).congr_of_eventuallyEq ?_
    filter_upwards [Ioi_mem_nhds h] with x hx
    unfold cosCut
    rw [if_neg (not_lt.2 (le_of_lt hx))]
    norm_num

theorem hasDerivAt_gauss (beta mu r : ℝ) :
    HasDerivAt (fun x => gauss x beta mu) (gaussD r beta mu).2 r := by
  have h1 : HasDerivAt (fun x : ℝ => x - mu) 1 r := (hasDerivAt_id r).sub_const mu
  have h2 : HasDerivAt (fun x : ℝ => -beta * (x - mu) * (x - mu))
      (-beta * 1 * (r - mu) + -beta * (r - mu) * 1) r := (h1.const_mul (-beta)).mul h1
  have h3 := h2.exp
  have e : exp (-beta * (r - mu) * (r - mu)) * (-beta * 1 * (r - mu) + -beta * (r - mu) * 1) =
      (gaussD r beta mu).2 := by
    unfold gaussD
    simp only
    rw [show (2.0 : ℝ) = 2 by norm_num]
    ring
  rw [e] at h3
  exact h3

/-- **C57 (radial functions, value).**  Both variants of `get_fn_` compute the same value. -/
theorem C57_same_value (params : ℕ → ℝ × ℝ) (rc : ℝ) (n : ℕ) (r : ℝ) :
    (getFnD params rc n r).1 = getFn params rc n r := by
  unfold getFnD getFn gaussD gauss cosCutD cosCut
  simp only
  rw [show π * r / rc = π / rc * r by ring]
  split_ifs <;> rfl

/-- **C57 (radial functions).**  `fn_dr` is the derivative of `fn`, for every distance, also at the
cutoff radius. -/
theorem C57_radial (params : ℕ → ℝ × ℝ) (rc : ℝ) (hrc : 0 < rc) (n : ℕ) (r : ℝ) :
    HasDerivAt (getFn params rc n) (getFnD params rc n r).2 r := by
  have h := (hasDerivAt_gauss (params n).1 (params n).2 r).mul (hasDerivAt_cosCut rc hrc r)
  unfold getFnD
  simp only
  have hg : (gaussD r (params n).1 (params n).2).1 = gauss r (params n).1 (params n).2 := rfl
  have hc : (cosCutD r rc).1 = cosCut r rc := by
    unfold cosCutD cosCut
    rw [show π * r / rc = π / rc * r by ring]
    split_ifs <;> rfl
  rw [hg, hc]
  exact h

/-- Beyond the cutoff radius both vanish. -/
theorem getFn_beyond (params : ℕ → ℝ × ℝ) (rc : ℝ) (n : ℕ) (r : ℝ) (h : rc ≤ r) :
    getFn params rc n r = 0 ∧ (getFnD params rc n r).2 = 0 := by
  unfold getFn getFnD cosCut cosCutD
  rw [if_neg (not_lt.2 h)]
  simp only [if_neg (not_lt.2 h)]
  constructor <;> norm_num

/-! ## Sums and products of lists -/

theorem hasDerivAt_listSum {α : Type} (l : List α) (f : α → ℝ → ℝ) (f' : α → ℝ) (x : ℝ)
    (h : ∀ a ∈ l, HasDerivAt (f a) (f' a) x) :
    HasDerivAt (fun s => (l.map fun a => f a s).sum) (l.map f').sum x := by
  induction l with
  | nil => simpa using hasDerivAt_const x (0 : ℝ)
  | cons a l ih =>
    simp only [List.map_cons, List.sum_cons]
    exact (h a (List.mem_cons_self ..)).add (ih fun b hb => h b (List.mem_cons_of_mem _ hb))

theorem hasDerivAt_listProd (ids : List ℕ) (A : ℝ → ℕ → ℝ) (A' : ℕ → ℝ) (x : ℝ)
    (h : ∀ l, HasDerivAt (fun s => A s l) (A' l) x) :
    HasDerivAt (fun s => (ids.map (A s)).prod) (termDeriv (A x) A' ids) x := by
  rw [termDeriv_eq_leibniz]
  induction ids with
  | nil => simpa [Spec.leibniz] using hasDerivAt_const x (1 : ℝ)
  | cons a l ih =>
    simp only [List.map_cons, List.prod_cons, Spec.leibniz]
    exact (h a).mul ih

/-! ## One pair -/

theorem hasDerivAt_dis (d : ℝ → Vec ℝ) (v : Vec ℝ) (hd : ∀ x, HasDerivAt (fun s => d s x) (v x) 0)
    (hne : 0 < r2 (d 0)) :
    HasDerivAt (fun s => disOf Real.sqrt (d s))
      ((d 0 0 * v 0 + d 0 1 * v 1 + d 0 2 * v 2) / disOf Real.sqrt (d 0)) 0 := by
  have h1 : HasDerivAt (fun s => r2 (d s)) (2 * (d 0 0 * v 0 + d 0 1 * v 1 + d 0 2 * v 2)) 0 := by
    unfold r2
    have := (((hd 0).mul (hd 0)).add ((hd 1).mul (hd 1))).add ((hd 2).mul (hd 2))
    have e : v 0 * d 0 0 + d 0 0 * v 0 + (v 1 * d 0 1 + d 0 1 * v 1) + (v 2 * d 0 2 + d 0 2 * v 2) =
        2 * (d 0 0 * v 0 + d 0 1 * v 1 + d 0 2 * v 2) := by ring
    rw [← e]
    exact this
  have h2 := h1.sqrt hne.ne'
  unfold disOf
  convert h2 using 1
  rw [mul_div_mul_left _ _ (two_ne_zero)]

/-- A pair inside or outside of the cutoff radius. -/
theorem hasDerivAt_pair (rc tol : ℝ) (hrc : 0 < rc) (G G' : ℝ → ℝ)
    (hG : ∀ r, HasDerivAt G (G' r) r) (hG0 : ∀ r, rc ≤ r → G r = 0 ∧ G' r = 0)
    (d : ℝ → Vec ℝ) (v : Vec ℝ) (hd : ∀ x, HasDerivAt (fun s => d s x) (v x) 0)
    (hcase : (∀ s, d s = 0) ∨ tol * tol < r2 (d 0)) :
    HasDerivAt (fun s => if inRange rc tol (d s) then
        (if rc ≤ disOf Real.sqrt (d s) then 0 else G (disOf Real.sqrt (d s))) else 0)
      (if inRange rc tol (d 0) then
        (if rc ≤ disOf Real.sqrt (d 0) then 0
        else G' (disOf Real.sqrt (d 0)) * ((d 0 0 * v 0 + d 0 1 * v 1 + d 0 2 * v 2) /
          disOf Real.sqrt (d 0))) else 0) 0 := by
  have hnn : 0 ≤ tol * tol := mul_self_nonneg tol
  rcases hcase with h | h
  · have hr : ∀ s, inRange rc tol (d s) = false := by
      intro s
      rw [h s]
      unfold inRange r2
      simp only [Pi.zero_apply, mul_zero, add_zero, gt_iff_lt, Bool.and_eq_false_iff,
        decide_eq_false_iff_not, not_lt]
      exact Or.inr hnn
    simp only [hr, Bool.false_eq_true, if_false]
    exact hasDerivAt_const _ _
  · have hpos : 0 < r2 (d 0) := lt_of_le_of_lt hnn h
    have hdis := hasDerivAt_dis d v hd hpos
    have hcont : ContinuousAt (fun s => r2 (d s)) 0 := by
      have : ∀ x, ContinuousAt (fun s => d s x) 0 := fun x => (hd x).continuousAt
      unfold r2
      exact (((this 0).mul (this 0)).add ((this 1).mul (this 1))).add ((this 2).mul (this 2))
    have key : ∀ (e : Vec ℝ) (g : ℝ), tol * tol < r2 e →
        (rc ≤ disOf Real.sqrt e → g = 0) →
        (if inRange rc tol e then (if rc ≤ disOf Real.sqrt e then 0 else g) else 0) = g := by
      intro e g he hg
      by_cases hr : r2 e < rc * rc
      · have : inRange rc tol e = true := by
          unfold inRange
          simp [hr, he]
        rw [if_pos this]
        split_ifs with hc
        · exact (hg hc).symm
        · rfl
      · have : inRange rc tol e = false := by
          unfold inRange
          simp [hr]
        rw [this, if_neg (by simp)]
        refine (hg ?_).symm
        unfold disOf
        exact Real.le_sqrt_of_sq_le (by rw [sq]; exact not_lt.1 hr)
    rw [key (d 0) _ h (fun hc => by rw [(hG0 _ hc).2, zero_mul])]
    refine ((hG _).comp (0 : ℝ) hdis).congr_of_eventuallyEq ?_
    have hev : ∀ᶠ s in nhds (0 : ℝ), tol * tol < r2 (d s) := hcont.eventually (lt_mem_nhds h)
    filter_upwards [hev] with s hs
    exact key (d s) _ hs (fun hc => (hG0 _ hc).1)

/-! ## Responses over the full list -/

theorem sum_filterMap {α β M : Type} [AddCommMonoid M] (l : List α) (f : α → Option β) (g : β → M) :
    ((l.filterMap f).map g).sum = (l.map fun a => ((f a).map g).getD 0).sum := by
  induction l with
  | nil => rfl
  | cons a l ih =>
    rw [List.filterMap_cons, List.map_cons, List.sum_cons, ← ih]
    cases f a <;> simp

theorem resp_fullRow (p : PairParams ℝ) (types : ℕ → ℕ) (rc tol : ℝ) (trans : List (Vec ℝ))
    (pos : ℕ → Vec ℝ) (n i : ℕ) (ρ : ℕ × Vec ℝ → ℕ → ℝ) (l : ℕ) :
    resp p Real.sqrt types i (fullRow rc tol trans pos n i) ρ l =
      ((List.range n).map fun j => (trans.map fun t =>
        if inRange rc tol (pos j - pos i + t) then
          (if p.cutoff ≤ disOf Real.sqrt (pos j - pos i + t) then 0
          else ((p.attrs (types i)).map fun a =>
            if p.maps.typePairs (types i) (types j) = a.tp then
              (if l = a.iloc then ρ (j, pos j - pos i + t) a.nId else 0) else 0).sum)
        else 0).sum).sum := by
  unfold resp fullRow
  rw [sum_flatMap]
  refine sum_map_congr _ _ _ ?_
  intro j _
  unfold pairEntries
  rw [sum_filterMap]
  refine sum_map_congr _ _ _ ?_
  intro t _
  simp only
  by_cases h : inRange rc tol (pos j - pos i + t) = true
  · rw [if_pos h, if_pos h]
    rfl
  · rw [if_neg h, if_neg h]
    rfl

/-- Values of the evaluator on the half list of a structure, in terms of the full list. -/
theorem evalPair_half (p : PairParams ℝ) (types : ℕ → ℕ) (n : ℕ)
    (htypes : ∀ i < n, types i < p.nType) (c : ℕ → ℝ) (rc tol : ℝ) (ht : 0 < tol)
    (trans : List (Vec ℝ)) (pos : ℕ → Vec ℝ) (hneg : (trans.map (fun t => -t)).Perm trans)
    (htol : ∀ t ∈ trans, tol * tol < r2 t → tol ≤ |t 0| ∨ tol ≤ |t 1| ∨ tol ≤ |t 2|) :
    let A := fun i => resp p Real.sqrt types i (fullRow rc tol trans pos n i)
    let R := evalPair p Real.sqrt (p.pot c) types n (neighborHalf rc tol trans pos n)
    R.energy = ((List.range n).map fun i => ((p.poly (types i)).map fun t => c t.1 *
        (t.2.map (A i (wE p Real.sqrt types i))).prod).sum).sum ∧
    (∀ q x, R.forces q x = ((List.range n).map fun i => ((p.poly (types i)).map fun t => c t.1 *
        termDeriv (A i (wE p Real.sqrt types i)) (A i (wF p Real.sqrt types q x i)) t.2).sum).sum) ∧
    (∀ c6, R.stress c6 = ((List.range n).map fun i => ((p.poly (types i)).map fun t => c t.1 *
        termDeriv (A i (wE p Real.sqrt types i)) (A i (wS p Real.sqrt types c6 i)) t.2).sum).sum) := by
  intro A R
  obtain ⟨h1, h2, h3⟩ := C28_fast_equals_linear p Real.sqrt types n htypes c rc tol ht trans pos hneg htol
  have hrow : ∀ i < n, (neighborFull rc tol trans pos n).row i = fullRow rc tol trans pos n i := by
    intro i hi
    unfold neighborFull
    rw [Neighbor.mkCsr_row _ i (by simpa using hi)]
    simp
  have hX := fun k => modelRun_terms p Real.sqrt types n (neighborFull rc tol trans pos n) k
  refine ⟨?_, ?_, ?_⟩
  · rw [show R.energy = _ from h1]
    simp only [(hX _).1]
    rw [← columns_sum p types n c fun i ids => (ids.map (resp p Real.sqrt types i
      ((neighborFull rc tol trans pos n).row i) (wE p Real.sqrt types i))).prod]
    refine sum_map_congr _ _ _ ?_
    intro i hi
    rw [hrow i (List.mem_range.1 hi)]
  · intro q x
    rw [show R.forces q x = _ from h2 q x]
    simp only [(hX _).2.1 q x]
    rw [← columns_sum p types n c fun i ids => termDeriv (resp p Real.sqrt types i
      ((neighborFull rc tol trans pos n).row i) (wE p Real.sqrt types i)) (resp p Real.sqrt types i
      ((neighborFull rc tol trans pos n).row i) (wF p Real.sqrt types q x i)) ids]
    refine sum_map_congr _ _ _ ?_
    intro i hi
    rw [hrow i (List.mem_range.1 hi)]
  · intro c6
    rw [show R.stress c6 = _ from h3 c6]
    simp only [(hX _).2.2 c6]
    rw [← columns_sum p types n c fun i ids => termDeriv (resp p Real.sqrt types i
      ((neighborFull rc tol trans pos n).row i) (wE p Real.sqrt types i)) (resp p Real.sqrt types i
      ((neighborFull rc tol trans pos n).row i) (wS p Real.sqrt types c6 i)) ids]
    refine sum_map_congr _ _ _ ?_
    intro i hi
    rw [hrow i (List.mem_range.1 hi)]

/-! ## Deformations -/

/-- Weight of the derivative along a change `v` of the vectors of the neighbour list. -/
noncomputable def wD (p : PairParams ℝ) (types : ℕ → ℕ) (v : ℕ → ℕ → Vec ℝ → Vec ℝ) (i : ℕ)
    (e : ℕ × Vec ℝ) (k : ℕ) : ℝ :=
  wV p Real.sqrt types i e k 0 * v i e.1 e.2 0 + wV p Real.sqrt types i e k 1 * v i e.1 e.2 1 +
    wV p Real.sqrt types i e k 2 * v i e.1 e.2 2

theorem fnAt_deriv (g : GaussParams) (hrc : 0 < g.cutoff) (ns : List ℕ) (k : ℕ) (r : ℝ) :
    HasDerivAt (fun r => fnAt g.pair.rad ns r k) (fnAt g.pair.radD ns r k) r := by
  unfold fnAt
  simp only [List.getD_eq_getElem?_getD, List.getElem?_map]
  cases ns[k]? with
  | none => exact hasDerivAt_const r 0
  | some n => exact C57_radial g.params g.cutoff hrc n r

theorem fnAt_beyond (g : GaussParams) (ns : List ℕ) (k : ℕ) (r : ℝ) (h : g.cutoff ≤ r) :
    fnAt g.pair.rad ns r k = 0 ∧ fnAt g.pair.radD ns r k = 0 := by
  unfold fnAt
  simp only [List.getD_eq_getElem?_getD, List.getElem?_map]
  cases ns[k]? with
  | none => exact ⟨rfl, rfl⟩
  | some n => exact getFn_beyond g.params g.cutoff n r h

/-- Derivative of a feature along a change of the positions and translations. -/
theorem resp_deriv (g : GaussParams) (hrc : 0 < g.cutoff) (types : ℕ → ℕ) (tol : ℝ)
    (trans : List (Vec ℝ)) (T : ℝ → Vec ℝ → Vec ℝ) (P : ℝ → ℕ → Vec ℝ)
    (v : ℕ → ℕ → Vec ℝ → Vec ℝ) (n i : ℕ) (hT : ∀ t, T 0 t = t)
    (hd : ∀ j < n, ∀ t ∈ trans, ∀ x, HasDerivAt (fun s => (P s j - P s i + T s t) x)
      (v i j (P 0 j - P 0 i + t) x) 0)
    (hcase : ∀ j < n, ∀ t ∈ trans, (∀ s, P s j - P s i + T s t = 0) ∨
      tol * tol < r2 (P 0 j - P 0 i + t)) (l : ℕ) :
    HasDerivAt (fun s => resp g.pair Real.sqrt types i
        (fullRow g.cutoff tol (trans.map (T s)) (P s) n i) (wE g.pair Real.sqrt types i) l)
      (resp g.pair Real.sqrt types i (fullRow g.cutoff tol trans (P 0) n i)
        (wD g.pair types v i) l) 0 := by
  simp only [resp_fullRow, List.map_map]
  refine hasDerivAt_listSum _ _ _ _ ?_
  intro j hj
  refine hasDerivAt_listSum trans _ _ _ ?_
  intro t ht
  simp only [Function.comp]
  rw [List.mem_range] at hj
  have h := hasDerivAt_pair g.cutoff tol hrc
    (fun r => ((g.pair.attrs (types i)).map fun a =>
      if g.pair.maps.typePairs (types i) (types j) = a.tp then (if l = a.iloc then
        fnAt g.pair.rad (g.pair.maps.tpN.getD (g.pair.maps.typePairs (types i) (types j)) []) r a.nId
        else 0) else 0).sum)
    (fun r => ((g.pair.attrs (types i)).map fun a =>
      if g.pair.maps.typePairs (types i) (types j) = a.tp then (if l = a.iloc then
        fnAt g.pair.radD (g.pair.maps.tpN.getD (g.pair.maps.typePairs (types i) (types j)) []) r a.nId
        else 0) else 0).sum)
    (fun r => by
      refine hasDerivAt_listSum _ _ _ _ ?_
      intro a _
      split_ifs
      · exact fnAt_deriv g hrc _ _ r
      · exact hasDerivAt_const _ _
      · exact hasDerivAt_const _ _)
    (fun r hr => by
      constructor
      · refine List.sum_eq_zero ?_
        intro y hy
        rw [List.mem_map] at hy
        obtain ⟨a, _, rfl⟩ := hy
        rw [(fnAt_beyond g _ _ r hr).1]
        simp
      · refine List.sum_eq_zero ?_
        intro y hy
        rw [List.mem_map] at hy
        obtain ⟨a, _, rfl⟩ := hy
        rw [(fnAt_beyond g _ _ r hr).2]
        simp)
    (fun s => P s j - P s i + T s t) (v i j (P 0 j - P 0 i + t)) (hd j hj t ht)
    (by simpa only [hT] using hcase j hj t ht)
  simp only [hT] at h
  refine h.congr_deriv ?_
  by_cases h1 : inRange g.cutoff tol (P 0 j - P 0 i + t) = true
  · rw [if_pos h1, if_pos h1]
    by_cases h2 : g.cutoff ≤ disOf Real.sqrt (P 0 j - P 0 i + t)
    · rw [if_pos h2, if_pos (show g.pair.cutoff ≤ _ from h2)]
    · rw [if_neg h2, if_neg (show ¬ g.pair.cutoff ≤ _ from h2), ← List.sum_map_mul_right]
      refine sum_map_congr _ _ _ ?_
      intro a _
      split_ifs
      · unfold wD wV
        simp only
        ring
      · simp
      · simp
  · rw [if_neg h1, if_neg h1]

/-- Derivative of the energy along a deformation. -/
theorem energy_deriv (g : GaussParams) (hrc : 0 < g.cutoff) (types : ℕ → ℕ) (n : ℕ) (c : ℕ → ℝ)
    (tol : ℝ) (trans : List (Vec ℝ)) (T : ℝ → Vec ℝ → Vec ℝ) (P : ℝ → ℕ → Vec ℝ)
    (v : ℕ → ℕ → Vec ℝ → Vec ℝ) (hT : ∀ t, T 0 t = t)
    (hd : ∀ i < n, ∀ j < n, ∀ t ∈ trans, ∀ x, HasDerivAt (fun s => (P s j - P s i + T s t) x)
      (v i j (P 0 j - P 0 i + t) x) 0)
    (hcase : ∀ i < n, ∀ j < n, ∀ t ∈ trans, (∀ s, P s j - P s i + T s t = 0) ∨
      tol * tol < r2 (P 0 j - P 0 i + t)) :
    HasDerivAt (fun s => ((List.range n).map fun i => ((g.pair.poly (types i)).map fun t => c t.1 *
        (t.2.map (resp g.pair Real.sqrt types i (fullRow g.cutoff tol (trans.map (T s)) (P s) n i)
          (wE g.pair Real.sqrt types i))).prod).sum).sum)
      ((List.range n).map fun i => ((g.pair.poly (types i)).map fun t => c t.1 *
        termDeriv (resp g.pair Real.sqrt types i (fullRow g.cutoff tol trans (P 0) n i)
          (wE g.pair Real.sqrt types i))
          (resp g.pair Real.sqrt types i (fullRow g.cutoff tol trans (P 0) n i)
            (wD g.pair types v i)) t.2).sum).sum 0 := by
  refine hasDerivAt_listSum _ _ _ _ ?_
  intro i hi
  refine hasDerivAt_listSum _ _ _ _ ?_
  intro t _
  rw [List.mem_range] at hi
  refine HasDerivAt.const_mul _ ?_
  have h := hasDerivAt_listProd t.2
    (fun s => resp g.pair Real.sqrt types i (fullRow g.cutoff tol (trans.map (T s)) (P s) n i)
      (wE g.pair Real.sqrt types i))
    (resp g.pair Real.sqrt types i (fullRow g.cutoff tol trans (P 0) n i) (wD g.pair types v i)) 0
    (fun l => resp_deriv g hrc types tol trans T P v n i hT (hd i hi) (hcase i hi) l)
  have h0 : trans.map (T 0) = trans := by
    conv_rhs => rw [← List.map_id trans]
    exact List.map_congr_left fun t _ => hT t
  rw [h0] at h
  exact h

/-! ## Linearity of the derivative in the weights -/

theorem termDeriv_sum {α : Type} (a : ℕ → ℝ) (L : List α) (w : α → ℕ → ℝ) (ids : List ℕ) :
    termDeriv a (fun l => (L.map fun q => w q l).sum) ids = (L.map fun q => termDeriv a (w q) ids).sum := by
  simp only [termDeriv_eq_leibniz]
  induction ids with
  | nil => simp [Spec.leibniz]
  | cons k ids ih =>
    simp only [Spec.leibniz]
    rw [ih, ← List.sum_map_mul_right, ← sum_map_mul_left', List.sum_map_add]

theorem termDeriv_smul (a w : ℕ → ℝ) (k : ℝ) (ids : List ℕ) :
    termDeriv a (fun l => k * w l) ids = k * termDeriv a w ids := by
  simp only [termDeriv_eq_leibniz]
  induction ids with
  | nil => simp [Spec.leibniz]
  | cons q ids ih =>
    simp only [Spec.leibniz]
    rw [ih]
    ring

theorem resp_sum {α : Type} (p : PairParams ℝ) (types : ℕ → ℕ) (i : ℕ) (row : List (ℕ × Vec ℝ))
    (L : List α) (k : α → ℝ) (ρ : α → ℕ × Vec ℝ → ℕ → ℝ) (l : ℕ) :
    resp p Real.sqrt types i row (fun e m => (L.map fun q => k q * ρ q e m).sum) l =
      (L.map fun q => k q * resp p Real.sqrt types i row (ρ q) l).sum := by
  unfold resp
  simp only [← sum_map_mul_left']
  rw [sum_map_comm]
  refine sum_map_congr _ _ _ ?_
  intro e _
  split_ifs
  · simp
  · simp only [← sum_map_mul_left']
    rw [sum_map_comm]
    refine sum_map_congr _ _ _ ?_
    intro a _
    split_ifs
    · rfl
    · simp
    · simp

theorem resp_congr (p : PairParams ℝ) (types : ℕ → ℕ) (i : ℕ) (row : List (ℕ × Vec ℝ))
    (ρ ρ' : ℕ × Vec ℝ → ℕ → ℝ) (h : ∀ e ∈ row, ∀ m, ρ e m = ρ' e m) (l : ℕ) :
    resp p Real.sqrt types i row ρ l = resp p Real.sqrt types i row ρ' l := by
  unfold resp
  refine sum_map_congr _ _ _ ?_
  intro e he
  split_ifs
  · rfl
  · refine sum_map_congr _ _ _ ?_
    intro a _
    rw [h e he]

/-- Sums of the evaluator with a linear combination of weights. -/
theorem contract_sum {α : Type} (p : PairParams ℝ) (types : ℕ → ℕ) (n : ℕ) (c : ℕ → ℝ)
    (row : ℕ → List (ℕ × Vec ℝ)) (L : List α) (k : α → ℝ) (ρ : α → ℕ → ℕ × Vec ℝ → ℕ → ℝ)
    (σ : ℕ → ℕ × Vec ℝ → ℕ → ℝ)
    (h : ∀ i < n, ∀ e ∈ row i, ∀ m, σ i e m = (L.map fun q => k q * ρ q i e m).sum) :
    ((List.range n).map fun i => ((p.poly (types i)).map fun t => c t.1 *
      termDeriv (resp p Real.sqrt types i (row i) (wE p Real.sqrt types i))
        (resp p Real.sqrt types i (row i) (σ i)) t.2).sum).sum =
    (L.map fun q => k q * ((List.range n).map fun i => ((p.poly (types i)).map fun t => c t.1 *
      termDeriv (resp p Real.sqrt types i (row i) (wE p Real.sqrt types i))
        (resp p Real.sqrt types i (row i) (ρ q i)) t.2).sum).sum).sum := by
  simp only [← sum_map_mul_left']
  rw [sum_map_comm]
  refine sum_map_congr _ _ _ ?_
  intro i hi
  rw [List.mem_range] at hi
  rw [sum_map_comm]
  refine sum_map_congr _ _ _ ?_
  intro t _
  have h1 : resp p Real.sqrt types i (row i) (σ i) = fun l =>
      (L.map fun q => k q * resp p Real.sqrt types i (row i) (ρ q i) l).sum := by
    funext l
    rw [resp_congr p types i (row i) (σ i) _ (h i hi) l, resp_sum]
  rw [h1, termDeriv_sum, ← sum_map_mul_left']
  refine sum_map_congr _ _ _ ?_
  intro q _
  rw [termDeriv_smul]
  ring

/-! ## The property -/

theorem sum_range_delta' {M : Type} [AddCommMonoid M] (n i : ℕ) (x : M) (hi : i < n) :
    ((List.range n).map fun q => if q = i then x else 0).sum = x := by
  have := sum_range_delta n i x hi
  exact this

theorem tol_of_long (tol : ℝ) (ht : 0 < tol) (t : Vec ℝ) (h : t = 0 ∨ 3 * (tol * tol) < r2 t) :
    tol * tol < r2 t → tol ≤ |t 0| ∨ tol ≤ |t 1| ∨ tol ≤ |t 2| := by
  intro h1
  by_contra hcon
  push Not at hcon
  obtain ⟨h0, h2, h3⟩ := hcon
  rcases h with rfl | h
  · unfold r2 at h1
    simp only [Pi.zero_apply, mul_zero, add_zero] at h1
    nlinarith
  · have hs : ∀ x : ℝ, |x| < tol → x * x < tol * tol := by
      intro x hx
      rw [← abs_mul_abs_self x]
      exact mul_self_lt_mul_self (abs_nonneg x) hx
    have a := hs _ h0
    have b := hs _ h2
    have d := hs _ h3
    unfold r2 at h
    linarith

/-- A structure without coinciding atoms: different sites are further apart than the tolerance of
the neighbour list, and the translations are zero or longer than `√3` times the tolerance. -/
def Separated (tol : ℝ) (trans : List (Vec ℝ)) (pos : ℕ → Vec ℝ) (n : ℕ) : Prop :=
  (∀ t ∈ trans, t = 0 ∨ 3 * (tol * tol) < r2 t) ∧
  ∀ i < n, ∀ j < n, ∀ t ∈ trans, (i = j ∧ t = 0) ∨ tol * tol < r2 (pos j - pos i + t)

theorem mem_fullRow (rc tol : ℝ) (trans : List (Vec ℝ)) (pos : ℕ → Vec ℝ) (n i : ℕ)
    (e : ℕ × Vec ℝ) (he : e ∈ fullRow rc tol trans pos n i) : e.1 < n := by
  unfold fullRow at he
  rw [List.mem_flatMap] at he
  obtain ⟨j, hj, he⟩ := he
  unfold pairEntries at he
  rw [List.mem_filterMap] at he
  obtain ⟨t, _, he⟩ := he
  simp only at he
  split_ifs at he
  rw [← Option.some.inj he]
  exact List.mem_range.1 hj

/-- **C57 (forces).**  The forces are minus the gradient of the energy: for every structure without
coinciding atoms and every displacement `u` of the atoms, the energy of the displaced structure (with
its own neighbour list) is differentiable, with derivative `-Σ F·u`. -/
theorem C57_forces (g : GaussParams) (hrc : 0 < g.cutoff) (types : ℕ → ℕ) (n : ℕ)
    (htypes : ∀ i < n, types i < g.nType) (c : ℕ → ℝ) (tol : ℝ) (ht : 0 < tol)
    (trans : List (Vec ℝ)) (pos : ℕ → Vec ℝ) (hneg : (trans.map (fun t => -t)).Perm trans)
    (hsep : Separated tol trans pos n) (u : ℕ → Vec ℝ) :
    let R := fun pos => evalPair g.pair Real.sqrt (g.pair.pot c) types n
      (neighborHalf g.cutoff tol trans pos n)
    HasDerivAt (fun s : ℝ => (R fun i x => pos i x + s * u i x).energy)
      (-((List.range n).map fun q => (R pos).forces q 0 * u q 0 + (R pos).forces q 1 * u q 1 +
        (R pos).forces q 2 * u q 2).sum) 0 := by
  intro R
  have htol := fun t h => tol_of_long tol ht t (hsep.1 t h)
  have hE := fun s : ℝ => (evalPair_half g.pair types n htypes c g.cutoff tol ht trans
    (fun i x => pos i x + s * u i x) hneg htol).1
  have hF := (evalPair_half g.pair types n htypes c g.cutoff tol ht trans pos hneg htol).2.1
  simp only at hE hF
  have hP0 : (fun (i : ℕ) (x : Fin 3) => pos i x + (0 : ℝ) * u i x) = pos := by
    funext i x; simp
  have hPk : ∀ k, (fun x => pos k x + (0 : ℝ) * u k x) = pos k := fun k => by funext x; simp
  have h := energy_deriv g hrc types n c tol trans (fun _ t => t) (fun s i x => pos i x + s * u i x)
    (fun i j _ x => u j x - u i x) (fun _ => rfl)
    (by
      intro i _ j _ t _ x
      have h1 : ∀ k : ℕ, HasDerivAt (fun s : ℝ => pos k x + s * u k x) (u k x) 0 := by
        intro k
        have := ((hasDerivAt_id (0 : ℝ)).mul_const (u k x)).const_add (pos k x)
        simpa using this
      exact ((h1 j).sub (h1 i)).add_const (t x))
    (by
      intro i hi j hj t htr
      simp only [hPk]
      rcases hsep.2 i hi j hj t htr with ⟨rfl, rfl⟩ | h
      · left; intro s; funext x; simp
      · exact Or.inr h)
  simp only [List.map_id'] at h
  have hfun : (fun s : ℝ => (R fun i x => pos i x + s * u i x).energy) = _ := funext hE
  rw [hfun]
  refine h.congr_deriv ?_
  rw [hP0]
  rw [contract_sum g.pair types n c (fun i => fullRow g.cutoff tol trans pos n i)
    ((List.range n).flatMap fun q => [(q, (0 : Fin 3)), (q, 1), (q, 2)])
    (fun q => -u q.1 q.2) (fun q => wF g.pair Real.sqrt types q.1 q.2)
    (wD g.pair types fun i j _ x => u j x - u i x) (by
      intro i hi e he m
      have hj := mem_fullRow _ _ _ _ _ _ e he
      rw [sum_flatMap]
      have hx : ∀ q, (([(q, (0 : Fin 3)), (q, 1), (q, 2)].map fun q : ℕ × Fin 3 =>
          -u q.1 q.2 * wF g.pair Real.sqrt types q.1 q.2 i e m).sum) =
          (if q = i then -(u i 0 * wV g.pair Real.sqrt types i e m 0 +
            u i 1 * wV g.pair Real.sqrt types i e m 1 + u i 2 * wV g.pair Real.sqrt types i e m 2)
            else 0) +
          (if q = e.1 then u e.1 0 * wV g.pair Real.sqrt types i e m 0 +
            u e.1 1 * wV g.pair Real.sqrt types i e m 1 +
            u e.1 2 * wV g.pair Real.sqrt types i e m 2 else 0) := by
        intro q
        simp only [List.map_cons, List.map_nil, List.sum_cons, List.sum_nil, wF]
        split_ifs with h1 h2 h2
        · subst h1; rw [← h2]; ring
        · subst h1; ring
        · subst h2; ring
        · ring
      simp only [hx, List.sum_map_add]
      rw [sum_range_delta' n i _ hi, sum_range_delta' n e.1 _ hj]
      unfold wD
      ring)]
  rw [sum_flatMap, ← sum_map_neg']
  refine sum_map_congr _ _ _ ?_
  intro q _
  simp only [List.map_cons, List.map_nil, List.sum_cons, List.sum_nil, R, hF]
  ring

/-- The strain `ε` applied to a vector. -/
def strain (ε : Fin 3 → Fin 3 → ℝ) (d : Vec ℝ) : Vec ℝ :=
  fun x => ε x 0 * d 0 + ε x 1 * d 1 + ε x 2 * d 2

/-- **C57 (stress).**  The six numbers (xx, yy, zz, xy, yz, zx) are minus the derivatives of the energy
with respect to a homogeneous strain of the cell and the positions. -/
theorem C57_stress (g : GaussParams) (hrc : 0 < g.cutoff) (types : ℕ → ℕ) (n : ℕ)
    (htypes : ∀ i < n, types i < g.nType) (c : ℕ → ℝ) (tol : ℝ) (ht : 0 < tol)
    (trans : List (Vec ℝ)) (pos : ℕ → Vec ℝ) (hneg : (trans.map (fun t => -t)).Perm trans)
    (hsep : Separated tol trans pos n) (ε : Fin 3 → Fin 3 → ℝ) :
    let R := fun trans pos => evalPair g.pair Real.sqrt (g.pair.pot c) types n
      (neighborHalf g.cutoff tol trans pos n)
    let S := (R trans pos).stress
    HasDerivAt (fun s : ℝ => (R (trans.map fun t x => t x + s * strain ε t x)
        (fun i x => pos i x + s * strain ε (pos i) x)).energy)
      (-(ε 0 0 * S 0 + ε 1 1 * S 1 + ε 2 2 * S 2 + (ε 0 1 + ε 1 0) * S 3 + (ε 1 2 + ε 2 1) * S 4 +
        (ε 2 0 + ε 0 2) * S 5)) 0 := by
  intro R S
  have htol := fun t h => tol_of_long tol ht t (hsep.1 t h)
  have hS := (evalPair_half g.pair types n htypes c g.cutoff tol ht trans pos hneg htol).2.2
  simp only at hS
  have hP0 : (fun (i : ℕ) (x : Fin 3) => pos i x + (0 : ℝ) * strain ε (pos i) x) = pos := by
    funext i x; simp
  have hPk : ∀ k, (fun x => pos k x + (0 : ℝ) * strain ε (pos k) x) = pos k :=
    fun k => by funext x; simp
  have h1 : ∀ (a b : ℝ), HasDerivAt (fun s : ℝ => a + s * b) b 0 := by
    intro a b
    have := ((hasDerivAt_id (0 : ℝ)).mul_const b).const_add a
    simpa using this
  have h := energy_deriv g hrc types n c tol trans (fun s t x => t x + s * strain ε t x)
    (fun s i x => pos i x + s * strain ε (pos i) x)
    (fun _ _ d => strain ε d) (fun t => by funext x; simp)
    (by
      intro i _ j _ t _ x
      simp only [hPk]
      have h2 := ((h1 (pos j x) (strain ε (pos j) x)).sub (h1 (pos i x) (strain ε (pos i) x))).add
        (h1 (t x) (strain ε t x))
      refine h2.congr_deriv ?_
      unfold strain
      simp only [Pi.add_apply, Pi.sub_apply]
      ring)
    (by
      intro i hi j hj t htr
      simp only [hPk]
      rcases hsep.2 i hi j hj t htr with ⟨rfl, rfl⟩ | h
      · left; intro s; funext x; simp [strain]
      · exact Or.inr h)
  have hev : ∀ᶠ s : ℝ in nhds 0, ∀ t ∈ trans, (fun x => t x + s * strain ε t x) = (0 : Vec ℝ) ∨
      3 * (tol * tol) < r2 fun x => t x + s * strain ε t x := by
    have hfin : {t | t ∈ trans}.Finite := List.finite_toSet trans
    have := (Filter.eventually_all_finite (l := nhds (0 : ℝ)) hfin
      (p := fun t s => (fun x => t x + s * strain ε t x) = (0 : Vec ℝ) ∨
      3 * (tol * tol) < r2 fun x => t x + s * strain ε t x)).2
    refine this ?_
    intro t htr
    rcases hsep.1 t htr with rfl | hl
    · refine Filter.Eventually.of_forall fun s => Or.inl ?_
      funext x; simp [strain]
    · have hc : ContinuousAt (fun s : ℝ => r2 fun x => t x + s * strain ε t x) 0 := by
        unfold r2
        have hx : ∀ x, ContinuousAt (fun s : ℝ => t x + s * strain ε t x) 0 :=
          fun x => (h1 (t x) (strain ε t x)).continuousAt
        exact (((hx 0).mul (hx 0)).add ((hx 1).mul (hx 1))).add ((hx 2).mul (hx 2))
      have h0 : 3 * (tol * tol) < (fun s : ℝ => r2 fun x => t x + s * strain ε t x) 0 := by
        simpa using hl
      exact (hc.eventually (lt_mem_nhds h0)).mono fun s hs => Or.inr hs
  have hnegs : ∀ s : ℝ, ((trans.map fun t x => t x + s * strain ε t x).map fun t => -t).Perm
      (trans.map fun t x => t x + s * strain ε t x) := by
    intro s
    have := hneg.map fun t x => t x + s * strain ε t x
    rw [List.map_map] at this ⊢
    refine (List.Perm.of_eq ?_).trans this
    refine List.map_congr_left fun t _ => ?_
    funext x
    simp only [Function.comp, Pi.neg_apply, strain]
    ring
  refine (h.congr_of_eventuallyEq ?_).congr_deriv ?_
  · filter_upwards [hev] with s hs
    exact (evalPair_half g.pair types n htypes c g.cutoff tol ht
      (trans.map fun t x => t x + s * strain ε t x)
      (fun i x => pos i x + s * strain ε (pos i) x) (hnegs s) (by
        intro t htr
        rw [List.mem_map] at htr
        obtain ⟨t0, ht0, rfl⟩ := htr
        exact tol_of_long tol ht _ (hs t0 ht0))).1
  rw [hP0]
  rw [contract_sum g.pair types n c (fun i => fullRow g.cutoff tol trans pos n i)
    [(-ε 0 0, (0 : Fin 6)), (-ε 1 1, 1), (-ε 2 2, 2), (-(ε 0 1 + ε 1 0), 3), (-(ε 1 2 + ε 2 1), 4),
      (-(ε 2 0 + ε 0 2), 5)]
    (fun q => q.1) (fun q => wS g.pair Real.sqrt types q.2)
    (wD g.pair types fun _ _ d => strain ε d) (by
      intro i _ e _ m
      simp only [List.map_cons, List.map_nil, List.sum_cons, List.sum_nil, wS, wD, six, strain, wV]
      simp only [Matrix.cons_val]
      ring)]
  simp only [List.map_cons, List.map_nil, List.sum_cons, List.sum_nil, S, R, hS]
  ring

/-- A structure of two atoms with translations meets the hypotheses. -/
example : Separated (1 / 10) [0, ![4, 0, 0], ![-4, 0, 0]] (fun i => if i = 0 then 0 else ![1, 1, 0]) 2 ∧
    (([0, ![4, 0, 0], ![-4, 0, 0]] : List (Vec ℝ)).map fun t => -t).Perm
      [0, ![4, 0, 0], ![-4, 0, 0]] := by
  constructor
  · constructor
    · intro t ht
      simp only [List.mem_cons, List.not_mem_nil, or_false] at ht
      rcases ht with rfl | rfl | rfl
      · exact Or.inl rfl
      · right; simp [r2]; norm_num
      · right; simp [r2]; norm_num
    · intro i hi j hj t ht
      simp only [List.mem_cons, List.not_mem_nil, or_false] at ht
      interval_cases i <;> interval_cases j <;> rcases ht with rfl | rfl | rfl <;>
        first
        | exact Or.inl ⟨rfl, rfl⟩
        | (right; simp [r2]; norm_num)
  · have : ([0, ![4, 0, 0], ![-4, 0, 0]] : List (Vec ℝ)).map (fun t => -t) =
        [0, ![-4, 0, 0], ![4, 0, 0]] := by
      simp
    rw [this]
    exact (List.Perm.swap _ _ _).cons _

end Verif.Mlp
