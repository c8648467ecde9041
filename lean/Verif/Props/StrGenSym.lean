import Verif.Model.StrGenSym
import Verif.Spec.StrGenSym
import Verif.Props.OptGeom
import Verif.Props.StrGen
import Verif.Props.Supercell
import Verif.Lemmas.Py

/-!
# C96: random structures that keep the symmetry
-/

namespace Verif.StrGenSym
open Verif.Spec
open Verif.StrGen (Str Vec Mat inv volumeChange mulVec_inv inv_ok mapM_forall₂ ofDigitChars_zeros
  volumeScaled_of)
open Verif.OptGeom

/-! ## Helper lemmas -/

theorem sqrt2_ge : (1 : ℝ) ≤ √2 := by rw [Real.one_le_sqrt]; norm_num
theorem sqrt3_ge : (1 : ℝ) ≤ √3 := by rw [Real.one_le_sqrt]; norm_num
theorem sqrt3_le : √3 ≤ 2 := by rw [Real.sqrt_le_left (by norm_num)]; norm_num

/-- No entry of a row of the basis of the axes is larger than one, and in each row at most one is not zero. -/
theorem rowAbs (spg q : ℕ) (hq : q < 9) :
    ((List.range (basisCell spg).length).map fun k => |colEntry (basisCell spg) q k|).sum ≤ 1 := by
  have h2 := sqrt2_ge
  have h3 := sqrt3_ge
  have h3' := sqrt3_le
  have e2 : |1 / √2| ≤ 1 := by rw [abs_of_nonneg (by positivity), div_le_one (by positivity)]; exact h2
  have e3 : |1 / √3| ≤ 1 := by rw [abs_of_nonneg (by positivity), div_le_one (by positivity)]; exact h3
  have e4 : |-0.5 / √2| ≤ 1 := by
    rw [abs_div, abs_of_pos (a := √2) (by positivity), div_le_one (by positivity)]
    norm_num [abs_of_neg]; linarith
  have e5 : |√3 / 2 / √2| ≤ 1 := by
    rw [abs_of_nonneg (by positivity), div_le_one (by positivity)]; linarith
  by_cases c1 : 195 ≤ spg
  · rw [basisCell_cubic spg c1]
    interval_cases q <;> simp [colEntry, List.range_succ] <;> simpa using e3
  by_cases c2 : 143 ≤ spg
  · rw [basisCell_hexagonal spg c2 (by omega)]
    interval_cases q <;> simp [colEntry, List.range_succ] <;> first | simpa using e2 | simpa using e4 | simpa using e5
  by_cases c3 : 75 ≤ spg
  · rw [basisCell_tetragonal spg c3 (by omega)]
    interval_cases q <;> simp [colEntry, List.range_succ] <;> simpa using e2
  by_cases c4 : 16 ≤ spg
  · rw [basisCell_orthorhombic spg c4 (by omega)]
    interval_cases q <;> simp [colEntry, List.range_succ]
  by_cases c5 : 3 ≤ spg
  · rw [basisCell_monoclinic spg c5 (by omega)]
    interval_cases q <;> simp [colEntry, List.range_succ]
  · rw [basisCell_triclinic spg (by omega)]
    interval_cases q <;> simp [colEntry, List.range_succ, unitCol]

/-- A configuration with no positions. -/
noncomputable def dummy (cols : List (List ℝ)) : Config :=
  ⟨0, fun _ _ => ⟨0, fun _ _ => 0, fun _ => 0⟩, true, false, fun _ _ => 0, 0, colEntry cols, cols.length, fun _ _ => 0, 0, 1, 0⟩

theorem recoverAxis_eq (cols : List (List ℝ)) (x : ℕ → ℝ) : recoverAxis cols x = axisOf (dummy cols) x := by
  ext r s
  simp [recoverAxis, axisOf, dummy]

theorem sum_bound (l : List ℕ) (f g : ℕ → ℝ) (d : ℝ) (hg : ∀ k, |g k| ≤ d) (hd : 0 ≤ d)
    (hf : (l.map fun k => |f k|).sum ≤ 1) : |(l.map fun k => f k * g k).sum| ≤ d := by
  have key : |(l.map fun k => f k * g k).sum| ≤ (l.map fun k => |f k|).sum * d := by
    clear hf
    induction l with
    | nil => simp
    | cons a l ih =>
      simp only [List.map_cons, List.sum_cons]
      calc |f a * g a + (l.map fun k => f k * g k).sum| ≤ |f a * g a| + |(l.map fun k => f k * g k).sum| := abs_add_le _ _
        _ ≤ |f a| * d + (l.map fun k => |f k|).sum * d := by
          rw [abs_mul]
          exact add_le_add (mul_le_mul_of_nonneg_left (hg a) (abs_nonneg _)) ih
        _ = _ := by ring
  calc _ ≤ _ := key
    _ ≤ 1 * d := mul_le_mul_of_nonneg_right hf hd
    _ = d := one_mul d

/-- The axes drawn have the shape of the crystal system and are near those of the cell. -/
theorem axes_spec (spg : ℕ) (A : Axis) (hA : Standard spg A) (y : ℕ → ℝ) (d : ℝ) (hd : 0 ≤ d) (hy : ∀ k, |y k| ≤ d) :
    Standard spg (recoverAxis (basisCell spg) fun k => y k + initialCoeffs (basisCell spg) A k) ∧
    NearAxes d A (recoverAxis (basisCell spg) fun k => y k + initialCoeffs (basisCell spg) A k) := by
  constructor
  · rw [recoverAxis_eq]
    exact C66_shape spg _ rfl rfl _
  · intro i j
    have hs : recoverAxis (basisCell spg) (initialCoeffs (basisCell spg) A) = A := by
      rw [recoverAxis_eq]
      exact C66_start spg _ rfl rfl A hA _ (by intro k; simp [dummy])
    have : recoverAxis (basisCell spg) (fun k => y k + initialCoeffs (basisCell spg) A k) i j - A i j =
        ((List.range (basisCell spg).length).map fun k => colEntry (basisCell spg) (3 * i + j) k * y k).sum := by
      have hij := congrFun (congrFun hs i) j
      simp only [recoverAxis, Matrix.of_apply, mul_add, List.sum_map_add] at hij ⊢
      linarith
    rw [this]
    exact sum_bound _ _ _ d hy hd (rowAbs spg _ (by omega))

theorem coeff_bound {r d : ℝ} (h0 : 0 ≤ r) (h1 : r ≤ 1) (hd : 0 ≤ d) : |coeff r d| ≤ d := by
  unfold coeff
  rw [abs_le]
  constructor <;> nlinarith

theorem sample_spec (tol : ℝ) (h0 : 0 < tol) (h1 : tol < 1) (cell : Str) (A : Axis) (disps : ℕ → Vec) (t : Str)
    (h : sample tol cell A disps = .ok t) :
    A.det ≠ 0 ∧ t.axis = A ∧ SameAtoms cell t ∧ t.volume = A.det ∧ InsideCell tol t ∧
      ∀ i, i < cell.positions.length → MovedBy cell t i (disps i) := by
  have hdet : A.det ≠ 0 := by
    intro hz
    simp [sample, inv, hz, bind, Except.bind] at h
  simp only [sample, inv_ok hdet, bind, Except.bind, pure, Except.pure, Except.ok.injEq] at h
  subst h
  refine ⟨hdet, rfl, ⟨rfl, rfl, rfl, by simp⟩, rfl, ?_, ?_⟩
  · intro p hp a
    simp only [List.mem_mapIdx] at hp
    obtain ⟨i, hi, rfl⟩ := hp
    exact (Supercell.refine1_spec tol _ h0 h1).2
  · intro i hi
    have hk : ∀ a, ∃ k : ℤ, Supercell.refine1 tol (cell.positions[i] a + A⁻¹.mulVec (disps i) a) =
        cell.positions[i] a + A⁻¹.mulVec (disps i) a + k := fun a => (Supercell.refine1_spec tol _ h0 h1).1
    choose m hm using hk
    refine ⟨cell.positions[i], fun a => Supercell.refine1 tol (cell.positions[i] a + A⁻¹.mulVec (disps i) a), m,
      by simp [hi], by simp [hi], ?_⟩
    have : (fun a => Supercell.refine1 tol (cell.positions[i] a + A⁻¹.mulVec (disps i) a) - cell.positions[i] a - m a) =
        A⁻¹.mulVec (disps i) := by
      funext a
      rw [hm]; ring
    simp only [this]
    exact mulVec_inv hdet _

theorem sample_ok (tol : ℝ) (cell : Str) (A : Axis) (disps : ℕ → Vec) (h : A.det ≠ 0) :
    ∃ t, sample tol cell A disps = .ok t := by
  simp [sample, inv_ok h, bind, Except.bind, pure, Except.pure]

theorem sum_list (m : ℕ) (f : ℕ → ℝ) : ∑ k ∈ Finset.range m, f k = ((List.range m).map f).sum := by
  induction m with
  | zero => rfl
  | succ m ih => rw [Finset.sum_range_succ, List.range_succ, ih]; simp

/-! ## The generator -/

/-- **C96.** Fixing both axes and positions is refused, and so are fixed axes without symmetric displacements. -/
theorem C96_refused (e : Ext) (cell : Str) :
    init e cell true true = .error .runtimeError ∧
    (e.basisCartesian cell = none → init e cell true false = .error .runtimeError) := by
  refine ⟨rfl, ?_⟩
  intro h
  simp [init, basisOfAxis, bind, Except.bind, h]

/-- What a run adds. -/
theorem run_spec (tol : ℝ) (h0 : 0 < tol) (h1 : tol < 1) (rand : ℕ → ℕ → ℕ → ℝ) (calls : ℕ) (g : Gen) (n : ℕ)
    (a d : ℝ) (g' : Gen) (calls' : ℕ) (h : run tol rand calls g n a d = .ok (g', calls')) :
    ∃ new : List Str, g' = { g with structures := g.structures ++ new } ∧ new.length = n ∧
      ∀ s t, new[s]? = some t → t.axis = (axes rand calls g a).1 s ∧ SameAtoms g.cell t ∧ t.volume = t.axis.det ∧
        t.axis.det ≠ 0 ∧ InsideCell tol t ∧ ∀ i, i < g.cell.positions.length →
          MovedBy g.cell t i ((displacements rand (axes rand calls g a).2 g d).1 s i) := by
  simp only [run, bind, Except.bind] at h
  cases hm : (List.range n).mapM fun (s : ℕ) => sample tol g.cell ((axes rand calls g a).1 s)
      ((displacements rand (axes rand calls g a).2 g d).1 s) with
  | error e => rw [hm] at h; simp at h
  | ok sts =>
    rw [hm] at h
    simp only [pure, Except.pure, Except.ok.injEq, Prod.mk.injEq] at h
    have hf := mapM_forall₂ hm
    refine ⟨sts, h.1.symm, by simpa using hf.length_eq.symm, ?_⟩
    intro s t ht
    obtain ⟨hs, hts⟩ := List.getElem?_eq_some_iff.mp ht
    have hl : sts.length = n := by simpa using hf.length_eq.symm
    have := (List.forall₂_iff_get.mp hf).2 s (by simp; omega) hs
    simp only [List.get_eq_getElem, List.getElem_range] at this
    rw [hts] at this
    obtain ⟨b1, b2, b3, b4, b5, b6⟩ := sample_spec tol h0 h1 _ _ _ _ this
    rw [b2]
    exact ⟨rfl, b3, b4, b1, b5, b6⟩

/-- **C96.** With free axes: the cell is standardized, and a run with random numbers between 0 and 1 adds exactly the
number of samples asked for to those of earlier runs.  If the standardized cell has the standard shape of its space
group, so has every sample, no entry of its axes is changed by more than `max_deform`, its volume is that of its axes,
its atoms are those of the cell, wrapped into the cell, and they are moved along the symmetric displacements, with
coefficients of at most `max_distance`, or not at all if there are none or the positions are fixed. -/
theorem C96_free_axes (tol : ℝ) (h0 : 0 < tol) (h1 : tol < 1) (e : Ext) (cell c : Str) (spg : ℕ) (fixPositions : Bool)
    (hc : e.standardize cell = .ok c) (hs : e.spaceGroup c = some spg) (hst : Standard spg c.axis)
    (rand : ℕ → ℕ → ℕ → ℝ) (hr : ∀ k r s, 0 ≤ rand k r s ∧ rand k r s ≤ 1) (a d : ℝ) (ha : 0 ≤ a) (hd : 0 ≤ d) :
    ∃ g0, init e cell false fixPositions = .ok g0 ∧ g0.structures = [] ∧
      ∀ (g : Gen), { g with structures := [] } = g0 → ∀ calls n g' calls', run tol rand calls g n a d = .ok (g', calls') →
        { g' with structures := [] } = g0 ∧
        ∃ new : List Str, g'.structures = g.structures ++ new ∧ new.length = n ∧ ∀ t ∈ new,
          SameAtoms c t ∧ Standard spg t.axis ∧ NearAxes a c.axis t.axis ∧ t.volume = t.axis.det ∧ InsideCell tol t ∧
          (∀ m b, fixPositions = false → e.basisCartesian c = some (m, b) → MovedAlong m b d c t) ∧
          (fixPositions = true ∨ e.basisCartesian c = none → ∀ i, i < c.positions.length → MovedBy c t i 0) := by
  let g0 : Gen := ⟨c, false, fixPositions, some (basisCell spg), if fixPositions then none else some (e.basisCartesian c), []⟩
  refine ⟨g0, ?_, rfl, ?_⟩
  · cases fixPositions <;>
      simp [init, basisOfAxis, bind, Except.bind, hc, hs, orErr, pure, Except.pure, g0]
  intro g hg calls n g' calls' hrun
  obtain ⟨new, hg', hl, hnew⟩ := run_spec tol h0 h1 rand calls g n a d g' calls' hrun
  have hcell : g.cell = c := congrArg Gen.cell hg
  have hba : g.basisAxis = some (basisCell spg) := congrArg Gen.basisAxis hg
  have hbc : g.basisCartesian = if fixPositions then none else some (e.basisCartesian c) := congrArg Gen.basisCartesian hg
  refine ⟨by rw [hg']; exact hg, new, by rw [hg'], hl, ?_⟩
  intro t ht
  obtain ⟨s, hs'⟩ := List.mem_iff_getElem?.mp ht
  obtain ⟨b1, b2, b3, b4, b5, b6⟩ := hnew s t hs'
  rw [hcell] at b2 b6
  have hax : t.axis = recoverAxis (basisCell spg)
      fun k => coeff (rand calls k s) a + initialCoeffs (basisCell spg) c.axis k := by
    rw [b1]; simp only [axes, hba, hcell]
  obtain ⟨s1, s2⟩ := axes_spec spg c.axis hst (fun k => coeff (rand calls k s) a) a ha
    (fun k => coeff_bound (hr _ _ _).1 (hr _ _ _).2 ha)
  rw [← hax] at s1 s2
  refine ⟨b2, s1, s2, b3, b5, ?_, ?_⟩
  · intro m b hf hb
    have hbc' : g.basisCartesian = some (some (m, b)) := by rw [hbc, hf, hb]; rfl
    refine ⟨fun k => coeff (rand (axes rand calls g a).2 k s) d, fun k => coeff_bound (hr _ _ _).1 (hr _ _ _).2 hd, ?_⟩
    intro i hi
    have := b6 i hi
    simp only [displacements, hbc', recoverDisps] at this
    convert this using 2
    rw [sum_list]
    congr 1
    apply List.map_congr_left
    intro k _; ring
  · intro hf i hi
    have hz : (displacements rand (axes rand calls g a).2 g d).1 s i = 0 := by
      rcases hf with hf | hf
      · have : g.basisCartesian = none := by rw [hbc, hf]; rfl
        simp only [displacements, this]
      · cases fixPositions
        · have : g.basisCartesian = some none := by rw [hbc, hf]; rfl
          simp only [displacements, this]
        · have : g.basisCartesian = none := by rw [hbc]; rfl
          simp only [displacements, this]
    have := b6 i hi
    rwa [hz] at this

/-- **C96.** With fixed axes the cell is used as it is, and every sample has exactly its axes. -/
theorem C96_fixed_axes (tol : ℝ) (h0 : 0 < tol) (h1 : tol < 1) (e : Ext) (cell : Str) (m : ℕ) (b : ℕ → ℕ → ℝ)
    (hb : e.basisCartesian cell = some (m, b)) (rand : ℕ → ℕ → ℕ → ℝ)
    (hr : ∀ k r s, 0 ≤ rand k r s ∧ rand k r s ≤ 1) (a d : ℝ) (hd : 0 ≤ d) :
    ∃ g0, init e cell true false = .ok g0 ∧ g0.structures = [] ∧
      ∀ (g : Gen), { g with structures := [] } = g0 → ∀ calls n g' calls', run tol rand calls g n a d = .ok (g', calls') →
        { g' with structures := [] } = g0 ∧
        ∃ new : List Str, g'.structures = g.structures ++ new ∧ new.length = n ∧ ∀ t ∈ new,
          SameAtoms cell t ∧ t.axis = cell.axis ∧ t.volume = t.axis.det ∧ InsideCell tol t ∧ MovedAlong m b d cell t := by
  refine ⟨⟨cell, true, false, none, some (some (m, b)), []⟩, ?_, rfl, ?_⟩
  · simp [init, basisOfAxis, bind, Except.bind, hb, pure, Except.pure]
  intro g hg calls n g' calls' hrun
  obtain ⟨new, hg', hl, hnew⟩ := run_spec tol h0 h1 rand calls g n a d g' calls' hrun
  have hcell : g.cell = cell := congrArg Gen.cell hg
  have hba : g.basisAxis = none := congrArg Gen.basisAxis hg
  have hbc : g.basisCartesian = some (some (m, b)) := congrArg Gen.basisCartesian hg
  refine ⟨by rw [hg']; exact hg, new, by rw [hg'], hl, ?_⟩
  intro t ht
  obtain ⟨s, hs'⟩ := List.mem_iff_getElem?.mp ht
  obtain ⟨b1, b2, b3, b4, b5, b6⟩ := hnew s t hs'
  rw [hcell] at b2 b6
  refine ⟨b2, ?_, b3, b5, ?_⟩
  · rw [b1]; simp only [axes, hba, hcell]
  · refine ⟨fun k => coeff (rand (axes rand calls g a).2 k s) d, fun k => coeff_bound (hr _ _ _).1 (hr _ _ _).2 hd, ?_⟩
    intro i hi
    have := b6 i hi
    simp only [displacements, hbc, recoverDisps] at this
    convert this using 2
    rw [sum_list]
    congr 1
    apply List.map_congr_left
    intro k _; ring

/-- **C96.** A run succeeds whenever no axes that can be drawn are linearly dependent. -/
theorem C96_succeeds (tol : ℝ) (e : Ext) (cell : Str) (fixAxis fixPositions : Bool) (g : Gen)
    (hg : init e cell fixAxis fixPositions = .ok g)
    (rand : ℕ → ℕ → ℕ → ℝ) (hr : ∀ k r s, 0 ≤ rand k r s ∧ rand k r s ≤ 1) (a d : ℝ) (ha : 0 ≤ a)
    (hfix : fixAxis = true → cell.axis.det ≠ 0)
    (hfree : fixAxis = false → ∀ c spg, e.standardize cell = .ok c → e.spaceGroup c = some spg →
      Standard spg c.axis ∧ ∀ A, NearAxes a c.axis A → Standard spg A → A.det ≠ 0) (calls n : ℕ) :
    ∃ r, run tol rand calls g n a d = .ok r := by
  have hdet : ∀ s, ((axes rand calls g a).1 s).det ≠ 0 := by
    intro s
    cases fixAxis with
    | true =>
      cases fixPositions with
      | true => simp [init] at hg
      | false =>
        simp only [init, basisOfAxis, bind, Except.bind, Bool.true_and, Bool.and_false, Bool.false_eq_true, if_false,
          if_true, pure, Except.pure] at hg
        split at hg
        · simp at hg
        · rw [← Except.ok.inj hg]
          exact hfix rfl
    | false =>
      simp only [init, basisOfAxis, bind, Except.bind, Bool.false_and, Bool.false_eq_true, if_false] at hg
      cases hc : e.standardize cell with
      | error x => rw [hc] at hg; simp at hg
      | ok c =>
        rw [hc] at hg
        cases hs : e.spaceGroup c with
        | none => simp [hs, orErr] at hg
        | some spg =>
          obtain ⟨hst, hA⟩ := hfree rfl c spg hc hs
          have hgg : g.cell = c ∧ g.basisAxis = some (basisCell spg) := by
            simp only [hs, orErr, pure, Except.pure] at hg
            split at hg <;> rw [← Except.ok.inj hg] <;> exact ⟨rfl, rfl⟩
          obtain ⟨s1, s2⟩ := axes_spec spg c.axis hst (fun k => coeff (rand calls k s) a) a ha
            (fun k => coeff_bound (hr _ _ _).1 (hr _ _ _).2 ha)
          have := hA _ s2 s1
          simp only [axes, hgg.1, hgg.2]
          exact this
  have hm : ∃ sts, ((List.range n).mapM fun (s : ℕ) => sample tol g.cell ((axes rand calls g a).1 s)
      ((displacements rand (axes rand calls g a).2 g d).1 s)) = .ok sts := by
    choose t ht using fun s => sample_ok tol g.cell ((axes rand calls g a).1 s)
      ((displacements rand (axes rand calls g a).2 g d).1 s) (hdet s)
    exact ⟨_, mapM_except_ok _ t _ fun s _ => ht s⟩
  obtain ⟨sts, hm⟩ := hm
  refine ⟨({ g with structures := g.structures ++ sts }, (displacements rand (axes rand calls g a).2 g d).2), ?_⟩
  simp only [run, bind, Except.bind]
  rw [hm]
  rfl

/-- **C96.** The basis sets, when neither axes nor positions are fixed: every matrix has the standard shape of the
crystal system, and the displacements are the columns of the basis. -/
theorem C96_basis_sets (e : Ext) (cell c : Str) (spg : ℕ) (hc : e.standardize cell = .ok c)
    (hs : e.spaceGroup c = some spg) :
    ∃ g A B, init e cell false false = .ok g ∧ basisSets g = .ok (A, B) ∧ (∀ a ∈ A, Standard spg a) ∧
      (e.basisCartesian c = none → B = none) ∧
      (∀ m b, e.basisCartesian c = some (m, b) → ∃ ds, B = some ds ∧ ds.length = m ∧
        ∀ k v, ds[k]? = some v → ∀ i (x : Fin 3), v i x = b (3 * i + x) k) := by
  refine ⟨⟨c, false, false, some (basisCell spg), some (e.basisCartesian c), []⟩,
    (List.range (basisCell spg).length).map fun (k : ℕ) => Matrix.of fun r s : Fin 3 => colEntry (basisCell spg) (3 * r + s) k,
    (e.basisCartesian c).map fun b => (List.range b.1).map fun (k : ℕ) => fun i a => b.2 (3 * i + a) k, ?_, rfl, ?_, ?_, ?_⟩
  · simp [init, basisOfAxis, bind, Except.bind, hc, hs, orErr, pure, Except.pure]
  · intro a ha
    obtain ⟨k, hk, rfl⟩ := List.mem_map.mp ha
    have := C66_shape spg (dummy (basisCell spg)) rfl rfl (fun j => if j = k then 1 else 0)
    rw [← recoverAxis_eq] at this
    convert this using 1
    ext r s
    simp only [recoverAxis, Matrix.of_apply]
    rw [← sum_list]
    simp [List.mem_range.mp hk]
  · intro h; simp [h]
  · intro m b h
    refine ⟨(List.range m).map fun (k : ℕ) => fun i a => b (3 * i + a) k, by simp [h], by simp, ?_⟩
    intro k v hv i x
    simp only [List.getElem?_map, Option.map_eq_some_iff] at hv
    obtain ⟨j, hj, rfl⟩ := hv
    obtain ⟨hj1, hj2⟩ := List.getElem?_eq_some_iff.mp hj
    simp only [List.getElem_range] at hj2
    subst hj2
    rfl

/-- **C96, violation.** With fixed axes or fixed positions the basis sets cannot be read, though one of them is
there. -/
theorem C96_basis_sets_violation (e : Ext) (cell : Str) (fixAxis fixPositions : Bool) (g : Gen)
    (h : fixAxis = true ∨ fixPositions = true) (hg : init e cell fixAxis fixPositions = .ok g) :
    basisSets g = .error .attributeError := by
  cases fixAxis with
  | true =>
    cases fixPositions with
    | true => simp [init] at hg
    | false =>
      simp only [init, basisOfAxis, bind, Except.bind, Bool.true_and, Bool.and_false, Bool.false_eq_true, if_false,
        if_true, pure, Except.pure] at hg
      split at hg
      · simp at hg
      · rw [← Except.ok.inj hg]
        simp [basisSets, orErr, bind, Except.bind]
  | false =>
    cases fixPositions with
    | false => simp at h
    | true =>
      simp only [init, bind, Except.bind, Bool.false_and, Bool.false_eq_true, if_false] at hg
      cases hb : basisOfAxis e cell false with
      | error x => rw [hb] at hg; simp at hg
      | ok b =>
        rw [hb] at hg
        simp only [if_true, pure, Except.pure] at hg
        rw [← Except.ok.inj hg]
        simp [basisSets, orErr, bind, Except.bind]

/-! ## The API -/

/-- **C96.** Without a structure nothing can be sampled, and without samples nothing is saved. -/
theorem C96_nothing (tol : ℝ) (e : Ext) (rand : ℕ → ℕ → ℕ → ℝ) (n : ℕ) (lo hi a d : ℝ) (fixAxis fixPositions : Bool)
    (text : Str → String) (path : List Char) (files : List Char → Option String) (st : Option Str) :
    sampleVolumes rand (Api.new none) n lo hi fixAxis a = .error .attributeError ∧
    sampleSym tol e rand (Api.new none) n fixAxis fixPositions a d = .error .attributeError ∧
    saveStructures text (Api.new st) path files = .error .typeError ∧
    apiBasisSets (Api.new st) = .error .attributeError := ⟨rfl, rfl, rfl, rfl⟩

/-- **C96.** Each sampling replaces the samples of earlier ones: `sample_sym` gives exactly the number asked for, those
of a new generator with the given options, and leaves the structure of the session as it was. -/
theorem C96_sample_sym (tol : ℝ) (e : Ext) (rand : ℕ → ℕ → ℕ → ℝ) (s s' : Api) (n : ℕ) (fixAxis fixPositions : Bool)
    (a d : ℝ) (h0 : 0 < tol) (h1 : tol < 1)
    (h : sampleSym tol e rand s n fixAxis fixPositions a d = .ok s') :
    ∃ st g g' calls', s.structure_ = some st ∧ s'.structure_ = some st ∧ init e st fixAxis fixPositions = .ok g ∧
      run tol rand s.calls g n a d = .ok (g', calls') ∧ s'.samples = some g'.structures ∧ g'.structures.length = n := by
  simp only [sampleSym, bind, Except.bind] at h
  cases hs : s.structure_ with
  | none => rw [hs] at h; simp [orErr] at h
  | some st =>
    rw [hs] at h
    simp only [orErr] at h
    cases hg : init e st fixAxis fixPositions with
    | error x => rw [hg] at h; simp at h
    | ok g =>
      rw [hg] at h
      simp only at h
      cases hr : run tol rand s.calls g n a d with
      | error x => rw [hr] at h; simp at h
      | ok r =>
        rw [hr] at h
        simp only [pure, Except.pure, Except.ok.injEq] at h
        obtain ⟨new, hg', hl, _⟩ := run_spec tol h0 h1 rand s.calls g n a d r.1 r.2 hr
        have hempty : g.structures = [] := by
          simp only [init, bind, Except.bind] at hg
          split at hg
          · simp at hg
          · cases hb : basisOfAxis e st fixAxis with
            | error x => rw [hb] at hg; simp at hg
            | ok b =>
              rw [hb] at hg
              simp only [pure, Except.pure] at hg
              split at hg
              · rw [← Except.ok.inj hg]
              · split at hg
                · simp at hg
                · rw [← Except.ok.inj hg]
        refine ⟨st, g, r.1, r.2, rfl, by rw [← h], hg, hr, by rw [← h], ?_⟩
        rw [hg', hempty]
        simpa using hl

/-- **C96.** `sample_volumes` with fixed axes gives one structure for each of the evenly spaced ratios of the volume,
in order; without, no entry of the axes is changed by more than `max_deform` from these. -/
theorem C96_sample_volumes (rand : ℕ → ℕ → ℕ → ℝ) (hr : ∀ k r s, 0 ≤ rand k r s ∧ rand k r s ≤ 1) (s : Api) (st : Str)
    (hs : s.structure_ = some st) (n : ℕ) (lo hi : ℝ) (hlo : 0 < lo) (hhi : lo ≤ hi) (fixAxis : Bool) (a : ℝ) (ha : 0 ≤ a) :
    ∃ s' sts, sampleVolumes rand s n lo hi fixAxis a = .ok s' ∧ s'.structure_ = some st ∧ s'.samples = some sts ∧
      sts.length = n ∧ ∀ (k : ℕ) t, sts[k]? = some t → ∃ u, VolumeScaled (lo + k * ((hi - lo) / ((n : ℝ) - 1))) st u ∧
        SameAtoms st t ∧ t.positions = st.positions ∧ t.volume = u.volume ∧ NearAxes a u.axis t.axis ∧
        (fixAxis = true → t.axis = u.axis) := by
  have hpos : ∀ x ∈ Verif.StrGen.linspace lo hi n, 0 < x := fun x hx =>
    lt_of_lt_of_le hlo (Verif.StrGen.mem_linspace hhi hx).1
  have hget : ∀ (k : ℕ) t, ((Verif.StrGen.linspace lo hi n).map (volumeChange st))[k]? = some t →
      t = volumeChange st (lo + k * ((hi - lo) / ((n : ℝ) - 1))) ∧ 0 < lo + k * ((hi - lo) / ((n : ℝ) - 1)) := by
    intro k t ht
    rw [List.getElem?_map, Option.map_eq_some_iff] at ht
    obtain ⟨x, hx, rfl⟩ := ht
    have hm := List.mem_of_getElem? hx
    simp only [Verif.StrGen.linspace, List.getElem?_map, Option.map_eq_some_iff] at hx
    obtain ⟨j, hj, rfl⟩ := hx
    obtain ⟨_, hj2⟩ := List.getElem?_eq_some_iff.mp hj
    simp only [List.getElem_range] at hj2
    subst hj2
    exact ⟨rfl, hpos _ hm⟩
  cases fixAxis with
  | true =>
    refine ⟨{ s with samples := some ((Verif.StrGen.linspace lo hi n).map (volumeChange st)) },
      (Verif.StrGen.linspace lo hi n).map (volumeChange st), ?_, hs, rfl, by simp [Verif.StrGen.linspace], ?_⟩
    · simp [sampleVolumes, hs, orErr, bind, Except.bind, pure, Except.pure]
    · intro k t ht
      obtain ⟨rfl, hp⟩ := hget k t ht
      have hv := volumeScaled_of (st := st) hp
      exact ⟨_, hv, hv.1, hv.2.1, rfl, fun i j => by simpa using ha, fun _ => rfl⟩
  | false =>
    refine ⟨⟨s.structure_, s.strgen,
      some (randomDeformation rand s.calls ((Verif.StrGen.linspace lo hi n).map (volumeChange st)) a), s.calls + 1⟩,
      randomDeformation rand s.calls ((Verif.StrGen.linspace lo hi n).map (volumeChange st)) a, ?_, hs, rfl,
      by simp [randomDeformation, Verif.StrGen.linspace], ?_⟩
    · simp [sampleVolumes, hs, orErr, bind, Except.bind, pure, Except.pure]
    · intro k t ht
      simp only [randomDeformation, List.getElem?_mapIdx, Option.map_eq_some_iff] at ht
      obtain ⟨u, hu, rfl⟩ := ht
      obtain ⟨rfl, hp⟩ := hget k u hu
      have hv := volumeScaled_of (st := st) hp
      refine ⟨_, hv, hv.1, hv.2.1, rfl, ?_, by simp⟩
      intro i j
      simp only [Matrix.add_apply, Matrix.of_apply, add_sub_cancel_left]
      exact coeff_bound (hr _ _ _).1 (hr _ _ _).2 ha

theorem fileName_inj (path : List Char) (i j : ℕ) (h : fileName path i = fileName path j) : i = j := by
  unfold fileName at h
  have h' := List.append_cancel_left h
  have := congrArg (fun l => Nat.ofDigitChars 10 l 0) h'
  rw [ofDigitChars_zeros, ofDigitChars_zeros, Nat.ofDigitChars_ten_toDigits, Nat.ofDigitChars_ten_toDigits] at this
  omega

theorem files_fold (text : Str → String) (path : List Char) (sts : List Str) : ∀ (k : ℕ) (f : List Char → Option String),
    (∀ i t, sts[i]? = some t → ((sts.zipIdx k).foldl (fun f p => Function.update f (fileName path p.2) (some (text p.1))) f)
      (fileName path (k + i)) = some (text t)) ∧
    ∀ q, (∀ i, i < sts.length → q ≠ fileName path (k + i)) →
      ((sts.zipIdx k).foldl (fun f p => Function.update f (fileName path p.2) (some (text p.1))) f) q = f q := by
  induction sts with
  | nil => intro k f; simp
  | cons a l ih =>
    intro k f
    simp only [List.zipIdx_cons, List.foldl_cons]
    obtain ⟨h1, h2⟩ := ih (k + 1) (Function.update f (fileName path k) (some (text a)))
    constructor
    · intro i t ht
      cases i with
      | zero =>
        simp only [List.getElem?_cons_zero, Option.some.injEq] at ht
        subst ht
        rw [h2]
        · simp
        · intro i _ hq
          have := fileName_inj _ _ _ hq
          omega
      | succ i =>
        have := h1 i t (by simpa using ht)
        rwa [show k + 1 + i = k + (i + 1) by omega] at this
    · intro q hq
      rw [h2 q, Function.update_of_ne]
      · exact hq 0 (by simp)
      · intro i hi hqi
        exact hq (i + 1) (by simpa using hi) (by rw [hqi]; congr 1; omega)

/-- **C96.** Saving writes the `i`-th sample to the file `POSCAR-` with the number `i + 1` in at least four digits, one
file for each sample, and changes no other file. -/
theorem C96_save (text : Str → String) (s : Api) (sts : List Str) (hs : s.samples = some sts) (path : List Char)
    (files : List Char → Option String) :
    ∃ files', saveStructures text s path files = .ok files' ∧
      (∀ (i : ℕ) t, sts[i]? = some t → files' (fileName path i) = some (text t)) ∧
      (∀ q, (∀ i, i < sts.length → q ≠ fileName path i) → files' q = files q) ∧
      (∀ i j, fileName path i = fileName path j → i = j) ∧
      ∀ i, ∃ d : List Char, fileName path i = path ++ "/POSCAR-".toList ++ d ∧ Nat.ofDigitChars 10 d 0 = i + 1 ∧
        (i + 1 < 10000 → d.length = 4) := by
  obtain ⟨h1, h2⟩ := files_fold text path sts 0 files
  simp only [zero_add] at h1 h2
  refine ⟨_, ?_, h1, h2, fileName_inj path, ?_⟩
  rotate_left
  · intro i
    refine ⟨_, rfl, ?_, ?_⟩
    · rw [ofDigitChars_zeros, Nat.ofDigitChars_ten_toDigits]
    · intro hi
      have : (Nat.toDigits 10 (i + 1)).length ≤ 4 := (Nat.length_toDigits_le_iff (by norm_num) (by norm_num)).mpr hi
      simp; omega
  simp only [saveStructures, hs, orErr, bind, Except.bind, pure, Except.pure]

example : fileName "poscars".toList 11 = "poscars/POSCAR-0012".toList := by decide
example : fileName "poscars".toList 12344 = "poscars/POSCAR-12345".toList := by decide

/-- **C96, violation.** Files of an earlier, larger set stay where they are: after saving fewer samples the directory
holds structures that are not samples any more. -/
theorem C96_stale_files_violation (text : Str → String) (st : Str) (path : List Char) :
    ∃ (s s' : Api) (f f' : List Char → Option String), s.samples = some [st, st] ∧ s'.samples = some [st] ∧
      saveStructures text s path (fun _ => none) = .ok f ∧ saveStructures text s' path f = .ok f' ∧
      f' (fileName path 1) = some (text st) := by
  obtain ⟨f, a1, a2, a3, _⟩ := C96_save text ⟨none, none, some [st, st], 0⟩ [st, st] rfl path fun _ => none
  obtain ⟨f', b1, b2, b3, b4, _⟩ := C96_save text ⟨none, none, some [st], 0⟩ [st] rfl path f
  refine ⟨⟨none, none, some [st, st], 0⟩, ⟨none, none, some [st], 0⟩, f, f', rfl, rfl, a1, b1, ?_⟩
  rw [b3 _ ?_, a2 1 st rfl]
  intro i hi h
  have := b4 _ _ h
  simp at hi
  omega

/-- A cube with one atom. -/
def cubic : Str := ⟨1, [0], [1], ["Si"], [0], 1, none, none, none⟩

/-- **C96, violation.** `sample_volumes` with free axes deforms the axes after the volume is set: the stored volume is
not that of the axes. -/
theorem C96_volume_violation : ∃ s t, sampleVolumes (fun _ r c => if r = c then 1 else 1 / 2) (Api.new (some cubic)) 1 1 1
    false (1 / 10) = .ok s ∧ s.samples = some [t] ∧ t.volume ≠ t.axis.det := by
  refine ⟨_, { cubic with axis := (11 / 10 : ℝ) • (1 : Mat) }, rfl, ?_, ?_⟩
  · simp only [randomDeformation, Verif.StrGen.linspace, List.range_one, List.map_cons, List.map_nil, List.mapIdx_cons,
      List.mapIdx_nil, Option.some.injEq, List.cons.injEq, and_true, volumeChange, cubic, Api.new]
    simp only [Nat.cast_zero, zero_mul, add_zero, Real.one_rpow, mul_one, one_smul]
    congr 1
    ext i j
    fin_cases i <;> fin_cases j <;> simp [coeff] <;> norm_num
  · simp [cubic, Matrix.det_smul]
    norm_num

/-- The identity is the standardization of the cube; its space group is number 221. -/
def cubicExt : Ext := ⟨fun c => .ok c, fun _ => some 221, fun _ => none⟩

/-- The hypotheses hold for the cube: every run with `max_deform` below its edge succeeds. -/
example (rand : ℕ → ℕ → ℕ → ℝ) (hr : ∀ k r s, 0 ≤ rand k r s ∧ rand k r s ≤ 1) (n : ℕ) :
    ∃ g r, init cubicExt cubic false false = .ok g ∧ run 1e-13 rand 0 g n (1 / 10) 0 = .ok r := by
  have hst : Standard 221 cubic.axis := by
    rw [Standard, if_pos (by norm_num)]
    refine ⟨1, ?_⟩
    ext i j; fin_cases i <;> fin_cases j <;> simp [cubic]
  obtain ⟨g, hg, _⟩ := C96_free_axes 1e-13 (by norm_num) (by norm_num) cubicExt cubic cubic 221 false rfl rfl hst rand hr
    (1 / 10) 0 (by norm_num) le_rfl
  obtain ⟨r, hr'⟩ := C96_succeeds 1e-13 cubicExt cubic false false g hg rand hr (1 / 10) 0 (by norm_num) (by simp)
    (by
      intro _ c spg hc hs
      simp only [cubicExt, Except.ok.injEq, Option.some.injEq] at hc hs
      subst hc; subst hs
      refine ⟨hst, ?_⟩
      intro A hA hs hz
      rw [Standard, if_pos (by norm_num)] at hs
      obtain ⟨a, rfl⟩ := hs
      have := hA 0 0
      simp [cubic] at this
      rw [abs_le] at this
      simp [Matrix.det_fin_three] at hz
      rw [hz] at this
      norm_num at this) 0 n
  exact ⟨g, r, hg, hr'⟩

end Verif.StrGenSym
