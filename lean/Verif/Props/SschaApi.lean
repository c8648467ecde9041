import Verif.Spec.SschaApi
import Mathlib.Tactic.Ring
import Mathlib.Tactic.NormNum
import Mathlib.Tactic.FieldSimp
import Mathlib.Tactic.Linarith
import Mathlib.Tactic.Positivity

/-!
# C89: parameters and sessions of SSCHA
-/

namespace Verif.SschaApi
open Verif.Spec

variable {C F V P D : Type}

/-! ## Rounding -/

theorem rint_near (x : ℝ) : |x - rint x| ≤ 1 / 2 := by
  have h1 := Int.floor_le x
  have h2 := Int.lt_floor_add_one x
  unfold rint
  split
  · rw [abs_of_nonneg (by linarith)]; linarith
  · split
    · push_cast; rw [abs_of_nonpos (by linarith)]; linarith
    · split
      · rw [abs_of_nonneg (by linarith)]; linarith
      · push_cast; rw [abs_of_nonpos (by linarith)]; linarith

theorem rint_int (k : ℤ) : rint (k : ℝ) = k := by
  unfold rint
  rw [Int.floor_intCast, if_pos (by norm_num)]

theorem rint_mono {x y : ℝ} (h : x ≤ y) : rint x ≤ rint y := by
  by_contra hc
  rw [not_le] at hc
  have h1 := abs_le.mp (rint_near x)
  have h2 := abs_le.mp (rint_near y)
  have h3 : ((rint y : ℝ)) + 1 ≤ rint x := by exact_mod_cast hc
  have hx : x = y := by linarith
  rw [hx] at hc
  exact absurd hc (lt_irrefl _)

theorem roundTemp_int (k : ℤ) : roundTemp (k : ℝ) = k := by
  unfold roundTemp
  rw [rint_int]
  simp

theorem roundTemp_used (t : ℝ) : UsedTemp t (roundTemp t) := by
  unfold roundTemp
  split
  · rename_i h
    exact .inr ⟨⟨_, rfl⟩, h⟩
  · exact .inl rfl

/-! ## Temperatures -/

/-- C89: a single temperature is used alone, whatever else was given. -/
theorem C89_single (a : TempArgs) (t : ℝ) (h : a.temp = some t) : ∃ t', setTemperatures a = .ok [t'] ∧ UsedTemp t t' := by
  refine ⟨roundTemp t, ?_, roundTemp_used t⟩
  unfold setTemperatures
  rw [h]

theorem range_lt (start step : ℝ) (h : 0 < step) (n : ℕ) :
    ((List.range n).map fun (i : ℕ) => start + i * step).Pairwise (· < ·) := by
  rw [List.pairwise_map]
  refine List.Pairwise.imp ?_ List.pairwise_lt_range
  intro i j hij
  have : (i : ℝ) < j := by exact_mod_cast hij
  nlinarith

/-- C89: for integers, temperatures are exactly those from the minimum to the maximum by steps, in the order asked for. -/
theorem C89_progression (a : TempArgs) (h1 : a.temp = none) (h2 : a.nTemp = none) (lo hi st : ℤ) (hlo : a.tmin = lo)
    (hhi : a.tmax = hi) (hst : a.step = st) (hpos : 0 < st) :
    ∃ l, setTemperatures a = .ok l ∧ (∀ t, t ∈ l ↔ ∃ k : ℕ, t = lo + k * st ∧ t ≤ hi) ∧ Ordered a.ascending l := by
  have hs : (0 : ℝ) < st := by exact_mod_cast hpos
  have hne : (st : ℝ) ≠ 0 := hs.ne'
  generalize hl : ((List.range ⌈((hi : ℝ) + 1 - lo) / st⌉.toNat).map fun (i : ℕ) => (lo : ℝ) + i * st) = l
  have hmem : ∀ t, t ∈ l ↔ ∃ k : ℕ, t = lo + k * st ∧ t ≤ hi := by
    intro t
    rw [← hl, List.mem_map]
    constructor
    · rintro ⟨k, hk, rfl⟩
      refine ⟨k, rfl, ?_⟩
      rw [List.mem_range, Int.lt_toNat, Int.lt_ceil, lt_div_iff₀ hs] at hk
      have hk2 : (k : ℤ) * st < hi + 1 - lo := by exact_mod_cast hk
      have : lo + k * st ≤ hi := by omega
      exact_mod_cast this
    · rintro ⟨k, rfl, hk⟩
      refine ⟨k, ?_, rfl⟩
      rw [List.mem_range, Int.lt_toNat, Int.lt_ceil, lt_div_iff₀ hs]
      push_cast
      linarith
  have hp : l.Pairwise (· < ·) := by rw [← hl]; exact range_lt _ _ hs _
  refine ⟨if a.ascending then l else l.reverse, ?_, ?_, ?_⟩
  · unfold setTemperatures
    rw [h1, h2]
    simp only [progression, hlo, hhi, hst, roundTemp_int, arange, if_neg hne, hl]
    rfl
  · intro t
    split
    · exact hmem t
    · rw [List.mem_reverse]; exact hmem t
  · unfold Ordered
    split
    · exact hp
    · rw [List.pairwise_reverse]
      exact hp

/-- C89: a step of zero is refused. -/
theorem C89_step_zero (a : TempArgs) (h1 : a.temp = none) (h2 : a.nTemp = none) (h : a.step = 0) :
    setTemperatures a = .error .zeroDivision := by
  unfold setTemperatures
  rw [h1, h2]
  have : roundTemp 0 = 0 := by exact_mod_cast roundTemp_int 0
  simp only [progression, h, this, arange, if_true]
  rfl

example : ∃ a : TempArgs, a.temp = none ∧ a.nTemp = none ∧ a.tmin = ((100 : ℤ) : ℝ) ∧ a.tmax = ((1000 : ℤ) : ℝ) ∧
    a.step = ((300 : ℤ) : ℝ) :=
  ⟨{ tmin := 100, tmax := 1000, step := 300 }, rfl, rfl, by norm_num, by norm_num, by norm_num⟩

theorem node_eq (n i : ℕ) (hn : 2 ≤ n) :
    Real.cos (Real.pi + i * ((0 - Real.pi) / (n - 1 : ℕ))) = -Real.cos (i * Real.pi / (n - 1 : ℕ)) := by
  have : (Real.pi + i * ((0 - Real.pi) / (n - 1 : ℕ)) : ℝ) = Real.pi - i * Real.pi / (n - 1 : ℕ) := by ring
  rw [this, Real.cos_pi_sub]

/-- C89: for a number of temperatures between two integers that are not close, they are the integers nearest to the Chebyshev
nodes, from the minimum to the maximum. -/
theorem C89_chebyshev (a : TempArgs) (h1 : a.temp = none) (n : ℕ) (hn : 2 ≤ n) (h2 : a.nTemp = some n) (lo hi : ℤ)
    (hlo : a.tmin = lo) (hhi : a.tmax = hi) (hlt : lo < hi) (hfar : 1e-8 + 1e-5 * |(lo : ℝ)| < hi - lo) :
    ∃ l, setTemperatures a = .ok l ∧ l.length = n ∧ l.Pairwise (· ≤ ·) ∧ l[0]? = some (lo : ℝ) ∧ l[n - 1]? = some (hi : ℝ) ∧
      (∀ t ∈ l, (lo : ℝ) ≤ t ∧ t ≤ hi) ∧
      ∀ i < n, ∃ k : ℤ, l[i]? = some (k : ℝ) ∧ |(lo + hi) / 2 - (hi - lo) / 2 * Real.cos (i * Real.pi / (n - 1 : ℕ)) - k| ≤ 1 / 2 := by
  have hd : (0 : ℝ) < hi - lo := by
    have : (lo : ℝ) < hi := by exact_mod_cast hlt
    linarith
  have hn1 : (0 : ℝ) < ((n - 1 : ℕ) : ℝ) := by
    have : 0 < n - 1 := by omega
    exact_mod_cast this
  let g : ℕ → ℝ := fun i => (lo + hi) / 2 - (hi - lo) / 2 * Real.cos (i * Real.pi / (n - 1 : ℕ))
  have hg : ∀ i : ℕ, ((hi : ℝ) - lo) * (Real.cos (Real.pi + i * ((0 - Real.pi) / (n - 1 : ℕ))) + 1) / 2 + lo = g i := by
    intro i
    rw [node_eq n i hn]
    simp only [g]
    ring
  have hl : setTemperatures a = .ok ((List.range n).map fun (i : ℕ) => ((rint (g i) : ℤ) : ℝ)) := by
    unfold setTemperatures
    rw [h1, h2]
    have hc : ¬ IsClose a.tmax a.tmin := by
      unfold IsClose
      rw [hlo, hhi, abs_of_pos hd]
      exact not_le.mpr hfar
    simp only [if_neg hc, nodes, List.map_map, Function.comp_def, roundTemp_int, hlo, hhi, hg]
  have hgb : ∀ i : ℕ, (lo : ℝ) ≤ g i ∧ g i ≤ hi := by
    intro i
    have c1 := Real.neg_one_le_cos (i * Real.pi / (n - 1 : ℕ))
    have c2 := Real.cos_le_one (i * Real.pi / (n - 1 : ℕ))
    simp only [g]
    constructor <;> nlinarith
  have hb : ∀ i : ℕ, lo ≤ rint (g i) ∧ rint (g i) ≤ hi := by
    intro i
    have := rint_mono (hgb i).1
    have := rint_mono (hgb i).2
    rw [rint_int] at *
    exact ⟨by assumption, by assumption⟩
  refine ⟨_, hl, by simp, ?_, ?_, ?_, ?_, ?_⟩
  · rw [List.pairwise_map]
    have hpw : (List.range n).Pairwise (fun i j => i < j ∧ j < n) := by
      rw [List.pairwise_iff_getElem]
      intro i j hi hj hij
      simp only [List.getElem_range, List.length_range] at *
      exact ⟨hij, by simpa using hj⟩
    refine hpw.imp ?_
    rintro i j ⟨hij, hj⟩
    have : g i ≤ g j := by
      have hc : Real.cos (j * Real.pi / (n - 1 : ℕ)) ≤ Real.cos (i * Real.pi / (n - 1 : ℕ)) := by
        apply Real.cos_le_cos_of_nonneg_of_le_pi
        · positivity
        · rw [div_le_iff₀ hn1]
          have : (j : ℝ) ≤ (n - 1 : ℕ) := by exact_mod_cast (by omega : j ≤ n - 1)
          nlinarith [Real.pi_pos]
        · have : (i : ℝ) ≤ j := by exact_mod_cast hij.le
          gcongr
      simp only [g]
      nlinarith
    exact_mod_cast rint_mono this
  · have h0 : g 0 = lo := by
      simp only [g, Nat.cast_zero, zero_mul, zero_div, Real.cos_zero]
      ring
    rw [List.getElem?_map, List.getElem?_range (by omega), Option.map_some, h0, rint_int]
  · have h0 : g (n - 1) = hi := by
      simp only [g]
      rw [mul_comm ((n - 1 : ℕ) : ℝ), mul_div_assoc, div_self hn1.ne', mul_one, Real.cos_pi]
      ring
    rw [List.getElem?_map, List.getElem?_range (by omega), Option.map_some, h0, rint_int]
  · intro t ht
    obtain ⟨i, -, rfl⟩ := List.mem_map.mp ht
    have := hb i
    exact ⟨by exact_mod_cast this.1, by exact_mod_cast this.2⟩
  · intro i hi'
    refine ⟨rint (g i), ?_, rint_near _⟩
    rw [List.getElem?_map, List.getElem?_range hi', Option.map_some]

example : ∃ a : TempArgs, a.temp = none ∧ a.nTemp = some 10 ∧ a.tmin = ((0 : ℤ) : ℝ) ∧ a.tmax = ((2000 : ℤ) : ℝ) ∧
    (1e-8 + 1e-5 * |((0 : ℤ) : ℝ)| < ((2000 : ℤ) : ℝ) - ((0 : ℤ) : ℝ)) :=
  ⟨{ nTemp := some 10 }, rfl, rfl, by norm_num, by norm_num, by norm_num⟩

/-- C89 does not hold for fractions: temperatures exceed the maximum. -/
theorem C89_fraction_violation : ∃ l, setTemperatures { tmin := 0, tmax := 1, step := 0.5, ascending := true } = .ok l ∧
    1.5 ∈ l := by
  have h0 : roundTemp 0 = 0 := by exact_mod_cast roundTemp_int 0
  have h1 : roundTemp 1 = 1 := by exact_mod_cast roundTemp_int 1
  have h2 : roundTemp 0.5 = 0.5 := by
    have hr : rint 0.5 = 0 := by
      have : ⌊(0.5 : ℝ)⌋ = 0 := by rw [Int.floor_eq_iff]; norm_num
      unfold rint
      rw [this]
      norm_num
    unfold roundTemp IsClose
    rw [hr]
    norm_num
  have hc : ⌈((1 : ℝ) + 1 - 0) / 0.5⌉.toNat = 4 := by
    have : ((1 : ℝ) + 1 - 0) / 0.5 = ((4 : ℤ) : ℝ) := by norm_num
    rw [this, Int.ceil_intCast]
    rfl
  refine ⟨(List.range 4).map fun (i : ℕ) => (0 : ℝ) + i * 0.5, ?_, List.mem_map.mpr ⟨3, by simp, by norm_num⟩⟩
  unfold setTemperatures
  simp only [progression, h0, h1, h2, arange, hc]
  norm_num [Except.map]

/-- C89 does not hold for Chebyshev nodes in small intervals, and for the order: a temperature is repeated, and temperatures
ascend although this was not asked for. -/
theorem C89_chebyshev_violation : setTemperatures { tmin := 0, tmax := 1, nTemp := some 3, ascending := false } =
    .ok [0, 0, 1] := by
  have hc : ¬ IsClose 1 0 := by
    unfold IsClose
    norm_num
  have hr : List.range 3 = [0, 1, 2] := rfl
  have h0 : Real.cos (Real.pi + ((0 : ℕ) : ℝ) * ((0 - Real.pi) / (3 - 1 : ℕ))) = -1 := by
    rw [Nat.cast_zero, zero_mul, add_zero, Real.cos_pi]
  have h1 : Real.cos (Real.pi + ((1 : ℕ) : ℝ) * ((0 - Real.pi) / (3 - 1 : ℕ))) = 0 := by
    have : (Real.pi + ((1 : ℕ) : ℝ) * ((0 - Real.pi) / (3 - 1 : ℕ)) : ℝ) = Real.pi / 2 := by
      norm_num
      ring
    rw [this, Real.cos_pi_div_two]
  have h2 : Real.cos (Real.pi + ((2 : ℕ) : ℝ) * ((0 - Real.pi) / (3 - 1 : ℕ))) = 1 := by
    have : (Real.pi + ((2 : ℕ) : ℝ) * ((0 - Real.pi) / (3 - 1 : ℕ)) : ℝ) = 0 := by
      norm_num
      ring
    rw [this, Real.cos_zero]
  have r0 : rint ((1 - 0) * (-1 + 1) / 2 + 0) = 0 := by
    have : ((1 : ℝ) - 0) * (-1 + 1) / 2 + 0 = ((0 : ℤ) : ℝ) := by norm_num
    rw [this, rint_int]
  have r1 : rint ((1 - 0) * (0 + 1) / 2 + 0) = 0 := by
    have h : ((1 : ℝ) - 0) * (0 + 1) / 2 + 0 = 1 / 2 := by norm_num
    have : ⌊(1 / 2 : ℝ)⌋ = 0 := by rw [Int.floor_eq_iff]; norm_num
    rw [h]
    unfold rint
    rw [this]
    norm_num
  have r2 : rint ((1 - 0) * (1 + 1) / 2 + 0) = 1 := by
    have : ((1 : ℝ) - 0) * (1 + 1) / 2 + 0 = ((1 : ℤ) : ℝ) := by norm_num
    rw [this, rint_int]
  unfold setTemperatures
  simp only [if_neg hc, nodes, hr, List.map_cons, List.map_nil, h0, h1, h2, r0, r1, r2, roundTemp_int]
  norm_num

/-! ## Runs -/

theorem matrix_ok (m : MatArg) : MatrixArg m (Matrix.of m.matrix) := by
  cases m with
  | diag a b c =>
    ext i j
    revert i j
    simp [Fin.forall_fin_succ, MatArg.matrix]
  | full m => rfl

theorem det_ok (M : Fin 3 → Fin 3 → ℤ) : det3 M = (Matrix.of M).det := by
  rw [Matrix.det_fin_three]
  simp only [det3, Matrix.of_apply]
  ring

theorem mkParams_ok {ext : Ext C F V P D} {c : C} {m : MatArg} {fc : Option F} {a : RunArgs} {p : Params C F}
    (h : mkParams ext c m fc a = .ok p) :
    AsAsked ext c m a p ∧ p.nInit = a.nInit ∧ p.nFinal = a.nFinal ∧ p.fc2 = fc := by
  unfold mkParams at h
  cases ht : setTemperatures a.temps with
  | error e => rw [ht] at h; cases h
  | ok l =>
    rw [ht] at h
    cases h
    exact ⟨⟨rfl, matrix_ok m, det_ok _, by rw [det_ok], ht, rfl, rfl, rfl, rfl⟩, rfl, rfl, rfl⟩

theorem samples_ok {ext : Ext C F V P D} {p q : Params C F} (h : setNumSamples ext p = .ok q) :
    (p.nInit ≠ none → q = p) ∧ (p.nInit = none → ∃ k : ℤ, q = { p with nInit := some k, nFinal := some (3 * k) } ∧
      |450 * (0.01 / p.tol) ^ (2.5 : ℝ) * ext.nBasis p / p.nAtom - k| ≤ 1 / 2) := by
  unfold setNumSamples at h
  cases hn : p.nInit with
  | some n =>
    rw [hn] at h
    cases h
    exact ⟨fun _ => rfl, fun h => absurd h (by simp)⟩
  | none =>
    rw [hn] at h
    refine ⟨fun h => absurd rfl h, fun _ => ?_⟩
    simp only [fromBasis] at h
    split at h
    · cases h
    split at h
    · cases h
    split at h
    · cases h
    cases h
    exact ⟨_, rfl, rint_near _⟩

theorem samples_spec {ext : Ext C F V P D} {c : C} {m : MatArg} {a : RunArgs} {p q : Params C F} (hp : AsAsked ext c m a p)
    (h1 : p.nInit = a.nInit) (h2 : p.nFinal = a.nFinal) (h : setNumSamples ext p = .ok q) :
    AsAsked ext c m a q ∧ q.fc2 = p.fc2 ∧ Samples a q (ext.nBasis { q with nInit := a.nInit, nFinal := a.nFinal }) := by
  obtain ⟨g1, g2⟩ := samples_ok h
  by_cases hn : p.nInit = none
  · obtain ⟨k, rfl, hk⟩ := g2 hn
    refine ⟨⟨hp.1, hp.2, hp.3, hp.4, hp.5, hp.6, hp.7, hp.8, hp.9⟩, rfl, fun h => absurd (h1 ▸ hn) h, fun _ => ⟨k, rfl, rfl, ?_⟩⟩
    rw [← h1, ← h2]
    exact hk
  · rw [g1 hn]
    exact ⟨hp, rfl, fun _ => ⟨h1, h2⟩, fun h => absurd (h1.trans h) hn⟩

theorem initial_ok {ext : Ext C F V P D} {p : Params C F} {v : V} {fc : Option F} {f : F} (h : initialFc ext p v fc = .ok f) :
    fc = some f ∨ (fc = none ∧ StartFc ext p v f) := by
  cases fc with
  | some g => cases h; exact .inl rfl
  | none =>
    refine .inr ⟨rfl, ?_⟩
    simp only [initialFc] at h
    split at h
    · rename_i ha; exact .harmonic f ha h
    split at h
    · rename_i ha; cases h; exact .fixed ha
    split at h
    · rename_i ha; cases h; exact .random ha
    split at h
    · rename_i ha
      cases hf : p.fcFile with
      | none => rw [hf] at h; cases h
      | some name => rw [hf] at h; exact .file name f ha hf h
    · cases h

/-- C89: a run without a potential, a structure or a supercell matrix is refused and changes nothing. -/
theorem C89_missing (ext : Ext C F V P D) (s : Session C F V P D) (a : RunArgs)
    (h : s.prop = none ∨ s.unitcell = none ∨ s.matrix = none) : step ext s (.run a) = (.error .runtimeError, s) := by
  simp only [step, runOp]
  cases h1 : s.prop <;> cases h2 : s.unitcell <;> cases h3 : s.matrix <;> simp_all

/-- C89: structures, matrices and potentials that are given are the ones that the next run uses; a restart file gives its
structure, its matrix and its force constants, and its potential unless another one is given or it is not asked for. -/
theorem C89_given (ext : Ext C F V P D) (s : Session C F V P D) :
    (∀ f m, (step ext s (.loadPoscar f m)).1 = .ok () ↔ ∃ c, ext.poscar f = .ok c) ∧
    (∀ f m c, ext.poscar f = .ok c → (step ext s (.loadPoscar f m)).2 = { s with unitcell := some c, matrix := some m }) ∧
    (∀ c, step ext s (.setUnitcell c) = (.ok (), { s with unitcell := some c })) ∧
    (∀ m, step ext s (.setMatrix m) = (.ok (), { s with matrix := some m })) ∧
    (∀ p v, ext.calculator p = .ok v → step ext s (.setPolymlp p) = (.ok (), { s with pot := some p, prop := some v })) ∧
    (∀ y pf pot c m rp f, ext.restart y ((fcPath y.toList pf).map String.ofList) = .ok (c, m, rp, f) →
      step ext s (.loadRestart y pf false pot) = (.ok (), { s with unitcell := some c, matrix := some m, fc2 := f }) ∧
      (∀ v, ext.calculator rp = .ok v → step ext s (.loadRestart y pf true none) =
        (.ok (), { s with unitcell := some c, matrix := some m, fc2 := f, pot := some rp, prop := some v })) ∧
      ∀ p v, ext.calculator p = .ok v → step ext s (.loadRestart y pf true (some p)) =
        (.ok (), { s with unitcell := some c, matrix := some m, fc2 := f, pot := some p, prop := some v })) := by
  refine ⟨?_, ?_, fun _ => rfl, fun _ => rfl, ?_, ?_⟩
  · intro f m
    simp only [step]
    cases h : ext.poscar f <;> simp
  · intro f m c h
    simp only [step, h]
  · intro p v h
    simp only [step, h]
  · intro y pf pot c m rp f h
    refine ⟨?_, ?_, ?_⟩
    · simp only [step, h]
      rfl
    · intro v hv
      simp only [step, h, Option.getD_none, hv]
      rfl
    · intro p v hv
      simp only [step, h, Option.getD_some, hv]
      rfl

/-- C89: a run that fails changes nothing but the parameters shown. -/
theorem C89_failed (ext : Ext C F V P D) (s : Session C F V P D) (a : RunArgs) (e : Err)
    (h : (step ext s (.run a)).1 = .error e) :
    ∃ q, (step ext s (.run a)).2 = { s with params := q } := by
  simp only [step, runOp] at h ⊢
  cases h1 : s.prop with
  | none => exact ⟨s.params, by cases s; simp_all⟩
  | some v =>
    cases h2 : s.unitcell with
    | none => exact ⟨s.params, by cases s; simp_all⟩
    | some c =>
      cases h3 : s.matrix with
      | none => exact ⟨s.params, by cases s; simp_all⟩
      | some m =>
        simp only [h1, h2, h3] at h ⊢
        cases h4 : mkParams ext c m s.fc2 a with
        | error e => exact ⟨s.params, by cases s; simp_all⟩
        | ok p =>
          simp only [h4] at h ⊢
          cases h5 : runSscha ext p v a.precondition a.temporal with
          | error e => exact ⟨some p, by cases s; simp_all⟩
          | ok r => rw [h5] at h; cases h

theorem standard_ok {ext : Ext C F V P D} {c : C} {m : MatArg} {a : RunArgs} {p : Params C F} {v : V} {prec : Bool}
    {r : Params C F × F × D} (hp : AsAsked ext c m a p) (h1 : p.nInit = a.nInit) (h2 : p.nFinal = a.nFinal)
    (h : runStandard ext p v prec = .ok r) :
    ∃ f0, AsAsked ext c m a r.1 ∧ Samples a r.1 (ext.nBasis { r.1 with nInit := a.nInit, nFinal := a.nFinal }) ∧
      (p.fc2 = some f0 ∨ (p.fc2 = none ∧ StartFc ext r.1 v f0)) ∧
      ext.iterate r.1 v f0 prec r.1.temperatures = .ok r.2 := by
  unfold runStandard at h
  cases g1 : setNumSamples ext p with
  | error e => rw [g1] at h; cases h
  | ok q =>
    rw [g1] at h
    simp only [bind, Except.bind] at h
    obtain ⟨k1, k2, k3⟩ := samples_spec hp h1 h2 g1
    cases g2 : initialFc ext q v q.fc2 with
    | error e => rw [g2] at h; cases h
    | ok f0 =>
      rw [g2] at h
      simp only at h
      cases g3 : ext.iterate q v f0 prec q.temperatures with
      | error e => rw [g3] at h; cases h
      | ok r2 =>
        rw [g3] at h
        cases h
        have := initial_ok g2
        rw [k2] at this
        exact ⟨f0, k1, k3, this, g3⟩

/-- C89: a successful run without a temporary cutoff is one calculation with what was asked for, starting from the force
constants of the session, or else from the ones of the algorithm asked for; the session then has its force constants,
parameters and results. -/
theorem C89_run (ext : Ext C F V P D) (s s' : Session C F V P D) (a : RunArgs) (ht : a.temporal = false)
    (h : step ext s (.run a) = (.ok (), s')) :
    ∃ v c m p f0 f d, s.prop = some v ∧ s.unitcell = some c ∧ s.matrix = some m ∧ AsAsked ext c m a p ∧
      Samples a p (ext.nBasis { p with nInit := a.nInit, nFinal := a.nFinal }) ∧
      (s.fc2 = some f0 ∨ (s.fc2 = none ∧ StartFc ext p v f0)) ∧
      ext.iterate p v f0 a.precondition p.temperatures = .ok (f, d) ∧
      s' = { s with params := some p, fc2 := some f, result := some d } := by
  simp only [step, runOp] at h
  cases h1 : s.prop with
  | none => rw [h1] at h; simp at h
  | some v =>
    cases h2 : s.unitcell with
    | none => rw [h1, h2] at h; simp at h
    | some c =>
      cases h3 : s.matrix with
      | none => rw [h1, h2, h3] at h; simp at h
      | some m =>
        simp only [h1, h2, h3] at h
        cases h4 : mkParams ext c m s.fc2 a with
        | error e => simp [h4] at h
        | ok p =>
          simp only [h4] at h
          cases h5 : runSscha ext p v a.precondition a.temporal with
          | error e => simp [h5] at h
          | ok r =>
            obtain ⟨q, f, d⟩ := r
            simp only [h5, Prod.mk.injEq, true_and] at h
            obtain ⟨k1, k2, k3, k4⟩ := mkParams_ok h4
            rw [runSscha, ht, if_neg (by simp)] at h5
            obtain ⟨f0, j1, j2, j3, j4⟩ := standard_ok k1 k2 k3 h5
            rw [k4] at j3
            exact ⟨v, c, m, q, f0, f, d, rfl, rfl, rfl, j1, j2, j3, j4, h.symm⟩

/-- C89: a run that has everything succeeds if its calculation does. -/
theorem C89_run_ok (ext : Ext C F V P D) (s : Session C F V P D) (a : RunArgs) (ht : a.temporal = false) (v : V) (c : C)
    (m : MatArg) (hv : s.prop = some v) (hc : s.unitcell = some c) (hm : s.matrix = some m) (l : List ℝ)
    (hl : setTemperatures a.temps = .ok l) (hn : a.nInit ≠ none ∨ (0 < a.tol ∧ ext.nElements c ≠ 0 ∧ ∀ M, MatrixArg m M → M.det ≠ 0))
    (hf : s.fc2 ≠ none ∨ a.algorithm = "const" ∨ a.algorithm = "random" ∨ (a.algorithm = "harmonic" ∧ ∀ p w, ∃ f, ext.harmonic p w = .ok f) ∨
      (a.algorithm = "file" ∧ ∃ name f, a.fcFile = some name ∧ ext.readFc name = .ok f))
    (hi : ∀ p f, ∃ r, ext.iterate p v f a.precondition l = .ok r) : (step ext s (.run a)).1 = .ok () := by
  simp only [step, runOp, hv, hc, hm]
  have h4 : ∃ p, mkParams ext c m s.fc2 a = .ok p := ⟨_, by simp only [mkParams, hl, bind, Except.bind]; rfl⟩
  obtain ⟨p, h4⟩ := h4
  obtain ⟨k1, k2, k3, k4⟩ := mkParams_ok h4
  have h5 : ∃ q, setNumSamples ext p = .ok q := by
    unfold setNumSamples
    cases hp : p.nInit with
    | some n => exact ⟨p, rfl⟩
    | none =>
      rcases hn with hn | ⟨n1, n2, n3⟩
      · exact absurd (k2.symm.trans hp) hn
      · have ha : p.nAtom ≠ 0 := by
          rw [k1.atoms]
          exact mul_ne_zero (by exact_mod_cast n2) (n3 _ k1.matrix)
        rw [← k1.tol] at n1
        exact ⟨_, by rw [fromBasis, if_neg ha, if_neg n1.ne', if_neg (not_lt.mpr n1.le)]⟩
  obtain ⟨q, h5⟩ := h5
  obtain ⟨j1, j2, -⟩ := samples_spec k1 k2 k3 h5
  have h6 : ∃ f, initialFc ext q v q.fc2 = .ok f := by
    rw [j2, k4]
    unfold initialFc
    cases hs : s.fc2 with
    | some f => exact ⟨f, rfl⟩
    | none =>
      rcases hf with hf | hf | hf | ⟨hf, h⟩ | ⟨hf, name, f, hn, h⟩
      · exact absurd hs hf
      · exact ⟨ext.fixed q, by simp [j1.algorithm, hf]⟩
      · exact ⟨ext.random q, by simp [j1.algorithm, hf]⟩
      · obtain ⟨f, h⟩ := h q v
        exact ⟨f, by simp [j1.algorithm, hf, h]⟩
      · exact ⟨f, by simp [j1.algorithm, hf, j1.file, hn, h]⟩
  obtain ⟨f, h6⟩ := h6
  have hq : q.temperatures = l := by
    have := j1.temps
    rw [hl] at this
    cases this
    rfl
  obtain ⟨r, h7⟩ := hi q f
  have h8 : runSscha ext p v a.precondition a.temporal = .ok (q, r) := by
    rw [runSscha, ht, if_neg (by simp), runStandard, h5]
    simp only [bind, Except.bind, h6, hq, h7]
    rfl
  rw [h4]
  simp only [h8]

/-- C89: with a temporary cutoff and a cutoff that is absent or above 7, a calculation with a cutoff of 6 at the first
temperature is done first; the calculation with the given cutoff for all temperatures starts from its force constants, and the
session has its results.  Otherwise the run is as without a temporary cutoff. -/
theorem C89_temporary (ext : Ext C F V P D) (s s' : Session C F V P D) (a : RunArgs) (ht : a.temporal = true)
    (h : step ext s (.run a) = (.ok (), s')) :
    ((∃ x, a.cutoff = some x ∧ x ≤ 7) → step ext s (.run { a with temporal := false }) = (.ok (), s')) ∧
    ((∀ x, a.cutoff = some x → 7 < x) → ∃ v c m q p t f0 f1 d1 f d,
      s.prop = some v ∧ s.unitcell = some c ∧ s.matrix = some m ∧
      AsAsked ext c m { a with cutoff := some 6 } q ∧ AsAsked ext c m a p ∧ p.temperatures.head? = some t ∧
      Samples a p (ext.nBasis { p with nInit := a.nInit, nFinal := a.nFinal }) ∧
      (s.fc2 = some f0 ∨ (s.fc2 = none ∧ StartFc ext q v f0)) ∧
      ext.iterate q v f0 a.precondition [t] = .ok (f1, d1) ∧ ext.iterate p v f1 false p.temperatures = .ok (f, d) ∧
      s'.fc2 = some f ∧ s'.result = some d) := by
  have key : ∀ b : RunArgs, b.temps = a.temps → b.nInit = a.nInit → b.nFinal = a.nFinal → b.tol = a.tol →
      b.algorithm = a.algorithm → b.fcFile = a.fcFile → b.cutoff = a.cutoff → ∀ c m fc, mkParams ext c m fc b = mkParams ext c m fc a := by
    intro b e1 e2 e3 e4 e5 e6 e7 c m fc
    simp only [mkParams, e1, e2, e3, e4, e5, e6, e7]
  simp only [step, runOp] at h ⊢
  cases h1 : s.prop with
  | none => rw [h1] at h; simp at h
  | some v =>
    cases h2 : s.unitcell with
    | none => rw [h1, h2] at h; simp at h
    | some c =>
      cases h3 : s.matrix with
      | none => rw [h1, h2, h3] at h; simp at h
      | some m =>
        simp only [h1, h2, h3, key { a with temporal := false } rfl rfl rfl rfl rfl rfl rfl] at h ⊢
        cases h4 : mkParams ext c m s.fc2 a with
        | error e => simp [h4] at h
        | ok p =>
          simp only [h4] at h ⊢
          obtain ⟨k1, k2, k3, k4⟩ := mkParams_ok h4
          rw [runSscha, ht, if_pos rfl, runLarge] at h
          constructor
          · rintro ⟨x, hx, hx7⟩
            have hl : long p.cutoff = false := by
              rw [k1.cutoff, hx]
              simpa [long] using hx7
            rw [hl] at h
            simp only [Bool.false_eq_true, if_false] at h
            simp only [runSscha, Bool.false_eq_true, if_false]
            exact h
          · intro hx
            have hl : long p.cutoff = true := by
              rw [k1.cutoff]
              cases hc : a.cutoff with
              | none => rfl
              | some x => simpa [long] using hx x hc
            rw [hl, if_pos rfl] at h
            have kq : AsAsked ext c m { a with cutoff := some 6 } { p with cutoff := some 6 } :=
              ⟨k1.1, k1.2, k1.3, k1.4, k1.5, k1.6, k1.7, k1.8, rfl⟩
            cases g1 : setNumSamples ext { p with cutoff := some 6 } with
            | error e => simp [g1, bind, Except.bind] at h
            | ok q =>
              obtain ⟨j1, j2, -⟩ := samples_spec kq (by exact k2) (by exact k3) g1
              simp only [g1, bind, Except.bind] at h
              cases g2 : initialFc ext q v q.fc2 with
              | error e => simp [g2] at h
              | ok f0 =>
                simp only [g2] at h
                cases g3 : q.temperatures.head? with
                | none => simp [g3, orErr] at h
                | some t =>
                  simp only [g3, orErr] at h
                  cases g4 : ext.iterate q v f0 a.precondition [t] with
                  | error e => simp [g4] at h
                  | ok first =>
                    simp only [g4] at h
                    cases g5 : setNumSamples ext p with
                    | error e => simp [g5] at h
                    | ok tg =>
                      simp only [g5] at h
                      obtain ⟨i1, i2, i3⟩ := samples_spec k1 k2 k3 g5
                      cases g6 : ext.iterate tg v first.1 false tg.temperatures with
                      | error e => simp [g6] at h
                      | ok r =>
                        simp only [g6, pure, Except.pure, Prod.mk.injEq, true_and] at h
                        have hi := initial_ok g2
                        rw [j2] at hi
                        have hi2 : s.fc2 = some f0 ∨ (s.fc2 = none ∧ StartFc ext q v f0) := by
                          rw [← k4]
                          exact hi
                        have htt : tg.temperatures = q.temperatures := by
                          have a1 := i1.temps
                          have a2 := j1.temps
                          simp only at a2
                          rw [a1] at a2
                          exact Except.ok.inj a2
                        exact ⟨v, c, m, q, tg, t, f0, first.1, first.2, r.1, r.2, rfl, rfl, rfl, j1, i1, by rw [htt]; exact g3, i3, hi2,
                          g4, g6, by rw [← h], by rw [← h]⟩

/-! ## Histories -/

theorem step_fc (ext : Ext C F V P D) (s : Session C F V P D) (o : Op C P)
    (h : ¬ (GivesFc o ∧ (step ext s o).1 = .ok ())) : (step ext s o).2.fc2 = s.fc2 := by
  cases o with
  | loadPoscar f m => simp only [step]; cases ext.poscar f <;> rfl
  | setPolymlp p => simp only [step]; cases ext.calculator p <;> rfl
  | setUnitcell c => rfl
  | setMatrix m => rfl
  | run a =>
    cases h1 : (step ext s (.run a)).1 with
    | ok u => exact absurd ⟨trivial, h1⟩ h
    | error e =>
      obtain ⟨q, hq⟩ := C89_failed ext s a e h1
      rw [hq]
  | loadRestart y pf pm pot =>
    simp only [GivesFc, true_and, step] at h ⊢
    cases h1 : ext.restart y ((fcPath y.toList pf).map String.ofList) with
    | error e => rfl
    | ok r =>
      obtain ⟨c, m, rp, f⟩ := r
      simp only [h1] at h ⊢
      split
      · rename_i hpm
        cases h2 : ext.calculator (pot.getD rp) with
        | error e => rfl
        | ok v => simp [hpm, h2] at h
      · rename_i hpm
        simp [hpm] at h

/-- C89: after any history the force constants of a session are those of its last successful run or restart. -/
theorem C89_history (ext : Ext C F V P D) (ops : List (Op C P)) (f : F) (h : (history ext {} ops).fc2 = some f) :
    ∃ pre o post, ops = pre ++ o :: post ∧ GivesFc o ∧ (step ext (history ext {} pre) o).1 = .ok () ∧
      (step ext (history ext {} pre) o).2.fc2 = some f ∧
      ∀ pre' o' post', post = pre' ++ o' :: post' → GivesFc o' →
        (step ext (history ext {} (pre ++ o :: pre')) o').1 ≠ .ok () := by
  induction ops using List.reverseRecOn with
  | nil => exact absurd h (by simp [history])
  | append_singleton ops o ih =>
    have hs : history ext {} (ops ++ [o]) = (step ext (history ext {} ops) o).2 := by simp [history]
    by_cases hg : GivesFc o ∧ (step ext (history ext {} ops) o).1 = .ok ()
    · refine ⟨ops, o, [], rfl, hg.1, hg.2, by rw [← hs]; exact h, ?_⟩
      intro pre' o' post' hp
      exact absurd hp (by simp)
    · rw [hs, step_fc ext _ o hg] at h
      obtain ⟨pre, o1, post, e1, e2, e3, e4, e5⟩ := ih h
      refine ⟨pre, o1, post ++ [o], by rw [e1]; simp, e2, e3, e4, ?_⟩
      intro pre' o' post' hp ho'
      rcases List.eq_nil_or_concat post' with hn | ⟨p2, x, hx⟩
      · subst hn
        obtain ⟨rfl, ho⟩ := List.append_inj' hp rfl
        cases ho
        rw [← e1]
        exact fun hc => hg ⟨ho', hc⟩
      · subst hx
        have : post ++ [o] = (pre' ++ o' :: p2) ++ [x] := by rw [hp]; simp
        obtain ⟨h1, -⟩ := List.append_inj' this rfl
        exact e5 pre' o' p2 h1 ho'

/-! ## Files of force constants -/

/-- C89: the force constants that belong to a file of results are read from the directory of that file. -/
theorem C89_directory (dir name : List Char) (h : '/' ∉ name) :
    fcPath (dir ++ '/' :: name) true = some (dir ++ "/fc2.hdf5".toList) := by
  have : directory (dir ++ '/' :: name) = dir := by
    unfold directory
    have hr : (dir ++ '/' :: name).reverse = name.reverse ++ '/' :: dir.reverse := by simp
    rw [hr, List.dropWhile_append_of_pos (by
      intro c hc
      rw [List.mem_reverse] at hc
      exact decide_eq_true fun hh : c = '/' => h (hh ▸ hc))]
    simp
  simp only [fcPath, if_true, this]

example : '/' ∉ "sscha_results.yaml".toList := by decide

/-- C89 does not hold for a file in the working directory, which is the default: the force constants are read from the root. -/
theorem C89_directory_violation (name : List Char) (h : '/' ∉ name) : fcPath name true = some "/fc2.hdf5".toList := by
  have : directory name = [] := by
    unfold directory
    have : name.reverse.dropWhile (· ≠ '/') = [] := by
      have := List.dropWhile_append_of_pos (p := (· ≠ '/')) (l₁ := name.reverse) (l₂ := []) (by
        intro c hc
        rw [List.mem_reverse] at hc
        exact decide_eq_true fun hh : c = '/' => h (hh ▸ hc))
      simpa using this
    rw [this]
    rfl
  simp only [fcPath, if_true, this]
  rfl

/-! ## Free energies of structures -/

/-- C89: the free energy of a structure is that of a calculation for it, static potential included, in eV. -/
theorem C89_eval (ext : Ext C F V P D) (static free : D → ℝ) (v : V) (p : Params C F) (c : C) (prec temporal : Bool)
    (r : ℝ × Params C F × F × D) (h : evalProps ext static free v p c prec temporal = .ok r) :
    ∃ f0, r.2.1.unitcell = c ∧ r.2.1.temperatures = p.temperatures ∧ (p.nInit ≠ none → r.2.1.nInit = p.nInit ∧ r.2.1.nFinal = p.nFinal) ∧
      (p.fc2 = some f0 ∨ (p.fc2 = none ∧ StartFc ext r.2.1 v f0)) ∧
      ext.iterate r.2.1 v f0 true r.2.1.temperatures = .ok r.2.2 ∧
      r.1 * 96.48533212331002 = static r.2.2.2 + free r.2.2.2 := by
  unfold evalProps at h
  simp only [runSscha, Bool.false_eq_true, if_false, runStandard, bind, Except.bind] at h
  cases g1 : setNumSamples ext { p with unitcell := c } with
  | error e => simp [g1] at h
  | ok q =>
    simp only [g1] at h
    cases g2 : initialFc ext q v q.fc2 with
    | error e => simp [g2] at h
    | ok f0 =>
      simp only [g2] at h
      cases g3 : ext.iterate q v f0 true q.temperatures with
      | error e => simp [g3] at h
      | ok r2 =>
        simp only [g3, pure, Except.pure] at h
        cases h
        obtain ⟨a1, a2⟩ := samples_ok g1
        have hi := initial_ok g2
        refine ⟨f0, ?_, ?_, ?_, ?_, g3, by field_simp⟩
        · by_cases hn : p.nInit = none
          · obtain ⟨k, rfl, -⟩ := a2 hn; rfl
          · rw [a1 hn]
        · by_cases hn : p.nInit = none
          · obtain ⟨k, rfl, -⟩ := a2 hn; rfl
          · rw [a1 hn]
        · intro hn
          rw [a1 hn]
          exact ⟨rfl, rfl⟩
        · have : q.fc2 = p.fc2 := by
            by_cases hn : p.nInit = none
            · obtain ⟨k, rfl, -⟩ := a2 hn; rfl
            · rw [a1 hn]
          rw [this] at hi
          exact hi

/-- C89: if the number of samples is given, structures evaluated together have the free energies they have when evaluated
alone. -/
theorem C89_multiple (ext : Ext C F V P D) (static free : D → ℝ) (v : V) (p : Params C F) (hn : p.nInit ≠ none)
    (cs : List C) (es : List ℝ) (q : Params C F) (h : evalMultiple ext static free v p cs = .ok (es, q)) :
    List.Forall₂ (fun c e => ∃ q', evalMultiple ext static free v p [c] = .ok ([e], q')) cs es := by
  have key : ∀ (p p' : Params C F), p.nInit ≠ none → { p with unitcell := p'.unitcell } = p' → ∀ c,
      evalProps ext static free v p c true false = evalProps ext static free v p' c true false := by
    intro p p' _ hp c
    unfold evalProps
    rw [← hp]
  have gen : ∀ (cs : List C) (es : List ℝ) (q p' : Params C F), { p with unitcell := p'.unitcell } = p' →
      evalMultiple ext static free v p' cs = .ok (es, q) →
      List.Forall₂ (fun c e => ∃ q', evalMultiple ext static free v p [c] = .ok ([e], q')) cs es := by
    intro cs
    induction cs with
    | nil =>
      intro es q p' _ h
      simp only [evalMultiple, Except.ok.injEq, Prod.mk.injEq] at h
      rw [← h.1]
      exact .nil
    | cons c cs ih =>
      intro es q p' hp h
      simp only [evalMultiple, bind, Except.bind] at h
      cases h1 : evalProps ext static free v p' c true false with
      | error e => simp [h1] at h
      | ok r =>
        simp only [h1] at h
        cases h2 : evalMultiple ext static free v r.2.1 cs with
        | error e => simp [h2] at h
        | ok t =>
          simp only [h2, pure, Except.pure, Except.ok.injEq, Prod.mk.injEq] at h
          obtain ⟨rfl, rfl⟩ := h
          refine .cons ?_ ?_
          · refine ⟨r.2.1, ?_⟩
            simp only [evalMultiple, bind, Except.bind, key p p' hn hp, h1]
            rfl
          · refine ih t.1 t.2 r.2.1 ?_ h2
            have : r.2.1 = { p' with unitcell := c } := by
              unfold evalProps at h1
              simp only [runSscha, Bool.false_eq_true, if_false, runStandard, bind, Except.bind] at h1
              cases g1 : setNumSamples ext { p' with unitcell := c } with
              | error e => simp [g1] at h1
              | ok q' =>
                have hq := (samples_ok g1).1 (by rw [← hp]; exact hn)
                simp only [g1] at h1
                cases g2 : initialFc ext q' v q'.fc2 with
                | error e => simp [g2] at h1
                | ok f0 =>
                  simp only [g2] at h1
                  cases g3 : ext.iterate q' v f0 true q'.temperatures with
                  | error e => simp [g3] at h1
                  | ok r2 =>
                    simp only [g3, pure, Except.pure, Except.ok.injEq] at h1
                    rw [← h1]
                    exact hq
            rw [this, ← hp]
  exact gen cs es q p (by cases p; rfl) h

/-! ## Witnesses -/

/-- Cells are numbers of atoms, and the results of a calculation are its parameters, the force constants it started from and
whether it was preconditioned. -/
def echo : Ext ℕ ℕ Unit Unit (Params ℕ ℕ × ℕ × Bool) where
  nElements c := c
  nBasis p := match p.cutoff with
    | none => 4 * p.unitcell
    | some _ => 2 * p.unitcell
  readFc _ := .ok 0
  harmonic p _ := .ok (100 * p.unitcell)
  fixed _ := 1
  random _ := 2
  calculator _ := .ok ()
  poscar _ := .ok 2
  restart _ _ := .error .valueError
  iterate p _ f prec _ := .ok (f + 1, p, f, prec)

/-- A session that has everything. -/
def ready (c : ℕ) : Session ℕ ℕ Unit Unit (Params ℕ ℕ × ℕ × Bool) :=
  { unitcell := some c, matrix := some (.diag 2 1 1), pot := some (), prop := some () }

/-- A tolerance for which the number of samples is simple. -/
theorem samples_at (n : ℕ) (a : ℤ) : rint (450 * (0.01 / 0.01) ^ (2.5 : ℝ) * n / a) = rint (450 * n / a) := by
  norm_num

/-- The result of a run of `echo`. -/
theorem echo_run (c : ℕ) (s : Session ℕ ℕ Unit Unit (Params ℕ ℕ × ℕ × Bool)) (h1 : s.prop = some ())
    (h2 : s.unitcell = some c) (h3 : s.matrix = some (.diag 2 1 1)) (f : Option ℕ) (h4 : s.fc2 = f) (a : RunArgs) (t : ℝ) (ht : a.temps = { temp := some t }) (hx : a.temporal = false)
    (ha : a.algorithm = "harmonic") (p : Params ℕ ℕ)
    (hp : setNumSamples echo ⟨c, (MatArg.diag 2 1 1).matrix, det3 (MatArg.diag 2 1 1).matrix, c * det3 (MatArg.diag 2 1 1).matrix,
      [roundTemp t], a.nInit, a.nFinal, a.tol, a.algorithm, a.fcFile, a.cutoff, f⟩ = .ok p) :
    step echo s (.run a) = (.ok (), { s with
      fc2 := some (f.getD (100 * c) + 1), params := some p, result := some (p, f.getD (100 * c), a.precondition) }) := by
  have hm : mkParams echo c (.diag 2 1 1) f a = .ok ⟨c, (MatArg.diag 2 1 1).matrix, det3 (MatArg.diag 2 1 1).matrix,
      c * det3 (MatArg.diag 2 1 1).matrix, [roundTemp t], a.nInit, a.nFinal, a.tol, a.algorithm, a.fcFile, a.cutoff, f⟩ := by
    simp only [mkParams, ht, setTemperatures]
    rfl
  have hpp : p.algorithm = "harmonic" ∧ p.fc2 = f ∧ p.unitcell = c := by
    obtain ⟨a1, a2⟩ := samples_ok hp
    by_cases hn : a.nInit = none
    · obtain ⟨k, rfl, -⟩ := a2 hn
      exact ⟨ha, rfl, rfl⟩
    · rw [a1 hn]
      exact ⟨ha, rfl, rfl⟩
  have hi : initialFc echo p () p.fc2 = .ok (f.getD (100 * c)) := by
    rw [hpp.2.1]
    cases f with
    | some f => rfl
    | none =>
      simp only [initialFc, hpp.1, if_true, echo, hpp.2.2]
      rfl
  have hr : runSscha echo ⟨c, (MatArg.diag 2 1 1).matrix, det3 (MatArg.diag 2 1 1).matrix,
      c * det3 (MatArg.diag 2 1 1).matrix, [roundTemp t], a.nInit, a.nFinal, a.tol, a.algorithm, a.fcFile, a.cutoff, f⟩ ()
      a.precondition a.temporal = .ok (p, f.getD (100 * c) + 1, p, f.getD (100 * c), a.precondition) := by
    rw [runSscha, hx, if_neg (by simp), runStandard, hp]
    simp only [bind, Except.bind, hi]
    rfl
  simp only [step, runOp, h1, h2, h3, h4, hm, hr]

/-- Hypotheses of `C89_run`, `C89_history` and `C89_run_ok`. -/
example : (step echo (ready 2) (.run { temps := { temp := some 300 }, nInit := some 100, nFinal := some 300 })).1 = .ok () := by
  have := echo_run 2 (ready 2) rfl rfl rfl none rfl { temps := { temp := some 300 }, nInit := some 100, nFinal := some 300 } 300 rfl rfl rfl _ rfl
  exact congrArg Prod.fst this

/-- C89 does not hold for the number of samples if only one of the two is given: a given number for the second loop is replaced,
and a missing one is not determined. -/
theorem C89_samples_violation :
    (∃ s' : Session ℕ ℕ Unit Unit (Params ℕ ℕ × ℕ × Bool), ∃ p f b,
      step echo (ready 2) (.run { temps := { temp := some 300 }, nFinal := some 7, tol := 0.01 }) = (.ok (), s') ∧
      s'.result = some (p, f, b) ∧ p.nFinal = some 2700) ∧
    (∃ s' : Session ℕ ℕ Unit Unit (Params ℕ ℕ × ℕ × Bool), ∃ p f b,
      step echo (ready 2) (.run { temps := { temp := some 300 }, nInit := some 7, tol := 0.01 }) = (.ok (), s') ∧
      s'.result = some (p, f, b) ∧ p.nFinal = none) := by
  constructor
  · have hr : rint (450 * (0.01 / 0.01) ^ (2.5 : ℝ) * ((8 : ℕ) : ℝ) / ((4 : ℤ) : ℝ)) = 900 := by
      rw [samples_at]
      have : (450 * ((8 : ℕ) : ℝ) / ((4 : ℤ) : ℝ) : ℝ) = ((900 : ℤ) : ℝ) := by norm_num
      rw [this, rint_int]
    have hs : ∀ (p : Params ℕ ℕ), p.nInit = none → p.tol = 0.01 → p.nAtom = 4 → p.cutoff = none → p.unitcell = 2 →
        setNumSamples echo p = .ok { p with nInit := some 900, nFinal := some 2700 } := by
      intro p h1 h2 h3 h4 h5
      have hb : echo.nBasis p = 8 := by simp only [echo, h4, h5]
      simp only [setNumSamples, h1, fromBasis, h3, h2, hb, hr]
      norm_num
    have := echo_run 2 (ready 2) rfl rfl rfl none rfl { temps := { temp := some 300 }, nFinal := some 7, tol := 0.01 } 300 rfl rfl rfl _
      (hs _ rfl rfl (by decide) rfl rfl)
    exact ⟨_, _, _, _, this, rfl, rfl⟩
  · have := echo_run 2 (ready 2) rfl rfl rfl none rfl { temps := { temp := some 300 }, nInit := some 7, tol := 0.01 } 300 rfl rfl rfl _ rfl
    exact ⟨_, _, _, _, this, rfl, rfl⟩

/-- C89 does not hold for a session with a new structure: its run starts from the force constants of the structure before,
although the harmonic ones were asked for. -/
theorem C89_stale_violation :
    ∃ s' : Session ℕ ℕ Unit Unit (Params ℕ ℕ × ℕ × Bool), ∃ p b,
      history echo {} [.setPolymlp (), .setUnitcell 2, .setMatrix (.diag 2 1 1),
        .run { temps := { temp := some 300 }, nInit := some 7, nFinal := some 7 }, .setUnitcell 5,
        .run { temps := { temp := some 300 }, nInit := some 7, nFinal := some 7, algorithm := "harmonic" }] = s' ∧
      s'.result = some (p, 201, b) ∧ p.unitcell = 5 ∧ echo.harmonic p () = .ok 500 := by
  have h1 := echo_run 2 (ready 2) rfl rfl rfl none rfl { temps := { temp := some 300 }, nInit := some 7, nFinal := some 7 } 300
    rfl rfl rfl _ rfl
  have h0 : history echo {} [.setPolymlp (), .setUnitcell 2, .setMatrix (.diag 2 1 1)] = ready 2 := rfl
  have h2 := echo_run 5 { (step echo (ready 2) (.run { temps := { temp := some 300 }, nInit := some 7, nFinal := some 7 })).2 with
      unitcell := some 5 } (by rw [h1]; rfl) rfl (by rw [h1]; rfl) (some 201) (by rw [h1]; rfl)
    { temps := { temp := some 300 }, nInit := some 7, nFinal := some 7 } 300 rfl rfl rfl _ rfl
  have h3 : history echo {} [.setPolymlp (), .setUnitcell 2, .setMatrix (.diag 2 1 1),
      .run { temps := { temp := some 300 }, nInit := some 7, nFinal := some 7 }, .setUnitcell 5,
      .run { temps := { temp := some 300 }, nInit := some 7, nFinal := some 7, algorithm := "harmonic" }] =
      (step echo { (step echo (ready 2) (.run { temps := { temp := some 300 }, nInit := some 7, nFinal := some 7 })).2 with
        unitcell := some 5 } (.run { temps := { temp := some 300 }, nInit := some 7, nFinal := some 7 })).2 := rfl
  exact ⟨_, _, _, rfl, by rw [h3, h2]; rfl, rfl, rfl⟩

/-- C89 does not hold for the parameters of a session after a run with a temporary cutoff: the number of samples is that of the
temporary calculation, not the one that was used. -/
theorem C89_temporary_violation : ∃ q p : Params ℕ ℕ, ∃ f g b, ∃ c : Params ℕ ℕ, c.cutoff = none ∧
    runSscha echo c () true true = .ok (q, f, p, g, b) ∧ q.cutoff = p.cutoff ∧ q.nInit = some 450 ∧ p.nInit = some 900 := by
  have hr : rint (450 * (0.01 / 0.01) ^ (2.5 : ℝ) * ((8 : ℕ) : ℝ) / ((4 : ℤ) : ℝ)) = 900 := by
    rw [samples_at]
    have : (450 * ((8 : ℕ) : ℝ) / ((4 : ℤ) : ℝ) : ℝ) = ((900 : ℤ) : ℝ) := by norm_num
    rw [this, rint_int]
  have hr2 : rint (450 * (0.01 / 0.01) ^ (2.5 : ℝ) * ((4 : ℕ) : ℝ) / ((4 : ℤ) : ℝ)) = 450 := by
    rw [samples_at]
    have : (450 * ((4 : ℕ) : ℝ) / ((4 : ℤ) : ℝ) : ℝ) = ((450 : ℤ) : ℝ) := by norm_num
    rw [this, rint_int]
  let c : Params ℕ ℕ := ⟨2, (MatArg.diag 2 1 1).matrix, 2, 4, [300], none, none, 0.01, "harmonic", none, none, none⟩
  have h1 : setNumSamples echo { c with cutoff := some 6 } =
      .ok { c with cutoff := some 6, nInit := some 450, nFinal := some 1350 } := by
    have hb : echo.nBasis { c with cutoff := some 6 } = 4 := rfl
    simp only [setNumSamples, fromBasis, hb, c, hr2]
    norm_num
  have h2 : setNumSamples echo c = .ok { c with nInit := some 900, nFinal := some 2700 } := by
    have hb : echo.nBasis c = 8 := rfl
    simp only [setNumSamples, fromBasis, hb]
    simp only [c, hr]
    norm_num
  have h3 : runSscha echo c () true true = .ok ({ c with nInit := some 450, nFinal := some 1350 }, 202,
      { c with nInit := some 900, nFinal := some 2700 }, 201, false) := by
    have hl : long c.cutoff = true := rfl
    simp only [runSscha, if_true, runLarge, hl, h1, h2, bind, Except.bind]
    rfl
  exact ⟨_, _, _, _, _, c, rfl, h3, rfl, rfl, rfl⟩

/-- C89 does not hold for structures evaluated together without a number of samples: later ones have the number of samples of the
first one, and another free energy than alone. -/
theorem C89_multiple_violation : ∃ p : Params ℕ ℕ, ∃ q q', p.nInit = none ∧
    evalMultiple echo (fun d => (d.1.nInit.getD 0 : ℝ)) (fun _ => 0) () p [2, 4] =
      .ok ([900 / 96.48533212331002, 900 / 96.48533212331002], q) ∧
    evalMultiple echo (fun d => (d.1.nInit.getD 0 : ℝ)) (fun _ => 0) () p [4] = .ok ([1800 / 96.48533212331002], q') := by
  have hr : rint (450 * (0.01 / 0.01) ^ (2.5 : ℝ) * ((8 : ℕ) : ℝ) / ((4 : ℤ) : ℝ)) = 900 := by
    rw [samples_at]
    have : (450 * ((8 : ℕ) : ℝ) / ((4 : ℤ) : ℝ) : ℝ) = ((900 : ℤ) : ℝ) := by norm_num
    rw [this, rint_int]
  have hr2 : rint (450 * (0.01 / 0.01) ^ (2.5 : ℝ) * ((16 : ℕ) : ℝ) / ((4 : ℤ) : ℝ)) = 1800 := by
    rw [samples_at]
    have : (450 * ((16 : ℕ) : ℝ) / ((4 : ℤ) : ℝ) : ℝ) = ((1800 : ℤ) : ℝ) := by norm_num
    rw [this, rint_int]
  let c : Params ℕ ℕ := ⟨2, (MatArg.diag 2 1 1).matrix, 2, 4, [300], none, none, 0.01, "harmonic", none, none, none⟩
  have h1 : setNumSamples echo c = .ok { c with nInit := some 900, nFinal := some 2700 } := by
    have hb : echo.nBasis c = 8 := rfl
    simp only [setNumSamples, fromBasis, hb]
    simp only [c, hr]
    norm_num
  have h2 : setNumSamples echo { c with unitcell := 4 } = .ok { c with unitcell := 4, nInit := some 1800, nFinal := some 5400 } := by
    have hb : echo.nBasis { c with unitcell := 4 } = 16 := rfl
    simp only [setNumSamples, fromBasis, hb]
    simp only [c, hr2]
    norm_num
  have e1 : evalProps echo (fun d => (d.1.nInit.getD 0 : ℝ)) (fun _ => 0) () c 2 true false =
      .ok (900 / 96.48533212331002, { c with nInit := some 900, nFinal := some 2700 }, 201,
        { c with nInit := some 900, nFinal := some 2700 }, 200, true) := by
    have hc : { c with unitcell := 2 } = c := rfl
    simp only [evalProps, hc, runSscha, Bool.false_eq_true, if_false, runStandard, h1, bind, Except.bind]
    simp [initialFc, c, echo, pure, Except.pure]
  have e2 : evalProps echo (fun d => (d.1.nInit.getD 0 : ℝ)) (fun _ => 0) ()
      { c with nInit := some 900, nFinal := some 2700 } 4 true false =
      .ok (900 / 96.48533212331002, { c with unitcell := 4, nInit := some 900, nFinal := some 2700 }, 401,
        { c with unitcell := 4, nInit := some 900, nFinal := some 2700 }, 400, true) := by
    simp only [evalProps, runSscha, Bool.false_eq_true, if_false, runStandard, setNumSamples, bind, Except.bind]
    simp [initialFc, c, echo, pure, Except.pure]
  have e3 : evalProps echo (fun d => (d.1.nInit.getD 0 : ℝ)) (fun _ => 0) () c 4 true false =
      .ok (1800 / 96.48533212331002, { c with unitcell := 4, nInit := some 1800, nFinal := some 5400 }, 401,
        { c with unitcell := 4, nInit := some 1800, nFinal := some 5400 }, 400, true) := by
    simp only [evalProps, runSscha, Bool.false_eq_true, if_false, runStandard, h2, bind, Except.bind]
    simp [initialFc, c, echo, pure, Except.pure]
  refine ⟨c, { c with unitcell := 4, nInit := some 900, nFinal := some 2700 },
    { c with unitcell := 4, nInit := some 1800, nFinal := some 5400 }, rfl, ?_, ?_⟩
  · simp only [evalMultiple, e1, e2, bind, Except.bind, pure, Except.pure]
  · simp only [evalMultiple, e3, bind, Except.bind, pure, Except.pure]

/-- Hypotheses of `C89_eval` and `C89_multiple`. -/
example : ∃ r, evalMultiple echo (fun _ => 1) (fun _ => 2) () ⟨2, (MatArg.diag 2 1 1).matrix, 2, 4, [300], some 10, some 20, 0.01,
    "harmonic", none, none, none⟩ [2, 3] = .ok r := by
  simp [evalMultiple, evalProps, runSscha, runStandard, setNumSamples, initialFc, echo, bind, Except.bind, pure, Except.pure]

/-- C89 does not hold for evaluations without preconditioning: the calculation is preconditioned all the same. -/
theorem C89_precondition_violation (ext : Ext C F V P D) (static free : D → ℝ) (v : V) (p : Params C F) (c : C) (b b' : Bool)
    (r : ℝ × Params C F × F × D) (h : evalProps ext static free v p c b b' = .ok r) :
    ∃ f0, ext.iterate r.2.1 v f0 true r.2.1.temperatures = .ok r.2.2 := by
  obtain ⟨f0, -, -, -, -, h5, -⟩ := C89_eval ext static free v p c b b' r h
  exact ⟨f0, h5⟩

end Verif.SschaApi
