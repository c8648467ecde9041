import Verif.Spec.Lattice
import Verif.Lemmas.NeighborCell
import Verif.Props.Neighbor

/-!
# C23, C24: cell reduction and completeness of the neighbour search
-/

namespace Verif.Neighbor

open Matrix Verif

theorem mem_lattice (a : Mat) (x : Vec ℝ) :
    x ∈ Spec.lattice a ↔ ∃ n : Fin 3 → ℤ, x = a *ᵥ castV n := by
  constructor
  · rintro ⟨n, h⟩; exact ⟨n, funext h⟩
  · rintro ⟨n, rfl⟩; exact ⟨n, fun _ => rfl⟩

theorem castV_mulVec (U : Matrix (Fin 3) (Fin 3) ℤ) (n : Fin 3 → ℤ) :
    castV (U *ᵥ n) = U.map (Int.cast : ℤ → ℝ) *ᵥ castV n := by
  funext r
  simp [castV, mulVec, dotProduct]

theorem Uni.lattice {a b : Mat} (h : Uni a b) : Spec.lattice b = Spec.lattice a := by
  obtain ⟨U, hU, rfl⟩ := h
  ext x
  rw [mem_lattice, mem_lattice]
  constructor
  · rintro ⟨n, rfl⟩
    exact ⟨U *ᵥ n, by rw [castV_mulVec, mulVec_mulVec]⟩
  · rintro ⟨n, rfl⟩
    refine ⟨U.adjugate *ᵥ n, ?_⟩
    rw [← mulVec_mulVec, ← castV_mulVec, mulVec_mulVec, mul_adjugate, hU]
    simp

theorem add_mem_lattice (a : Mat) {x y : Vec ℝ} (hx : x ∈ Spec.lattice a)
    (hy : y ∈ Spec.lattice a) : x + y ∈ Spec.lattice a := by
  rw [mem_lattice] at *
  obtain ⟨n, rfl⟩ := hx
  obtain ⟨m, rfl⟩ := hy
  refine ⟨n + m, ?_⟩
  rw [← mulVec_add]; congr 1; funext k; simp [castV]

theorem neg_mem_lattice (a : Mat) {x : Vec ℝ} (hx : x ∈ Spec.lattice a) :
    -x ∈ Spec.lattice a := by
  rw [mem_lattice] at *
  obtain ⟨n, rfl⟩ := hx
  refine ⟨-n, ?_⟩
  rw [← mulVec_neg]; congr 1; funext k; simp [castV]

/-- **C23.** The reduced axes generate the same lattice. -/
theorem C23_lattice (a : Mat) : Spec.lattice (cellAxis a) = Spec.lattice a :=
  (uni_cellAxis a).lattice

/-- **C23 (volume and orientation).** -/
theorem C23_det (a : Mat) : (cellAxis a).det = a.det := (uni_cellAxis a).det

/-- **C23 (any number of steps).** The invariant holds after any number of iterations of the
reduction loop, not only after 100. -/
theorem C23_any_steps (a : Mat) (n : ℕ) :
    Spec.lattice (refineLoop n a) = Spec.lattice a ∧ (refineLoop n a).det = a.det :=
  ⟨(uni_refineLoop n a).lattice, (uni_refineLoop n a).det⟩

/-- **C23 (positions).** Every position is moved by a lattice vector. -/
theorem C23_positions (a : Mat) (h : a.det ≠ 0) (p : Vec ℝ) :
    cellPos a p - p ∈ Spec.lattice a := by
  unfold cellPos
  split
  · rename_i hr
    have hA : (refineAxis a).det = a.det := (uni_refineLoop 100 a).det
    rw [← (uni_refineLoop 100 a).lattice, mem_lattice]
    show ∃ n : Fin 3 → ℤ, _ = refineAxis a *ᵥ castV n
    set A := refineAxis a
    set f := toCartesian (axisInv A) p with hf
    refine ⟨fun k => -⌊f k⌋, ?_⟩
    have hp : p = A *ᵥ f := by
      rw [hf, toCartesian_eq, mulVec_mulVec, axisInv_mul A (by rw [hA]; exact h), one_mulVec]
    conv_lhs => rw [toCartesian_eq, hp]
    rw [← mulVec_sub]
    congr 1
    funext k
    simp [standardize, castV]
  · rw [sub_self, mem_lattice]
    exact ⟨0, by simp [castV, funext_iff, mulVec, dotProduct]⟩

/-- **C23 (wrapping).** After a reduction every position has fractional coordinates in `[0, 1)`
with respect to the reduced axes. -/
theorem C23_wrapped (a : Mat) (hr : refAny a) (p : Vec ℝ) :
    ∃ f : Vec ℝ, (∀ k, 0 ≤ f k ∧ f k < 1) ∧ cellPos a p = cellAxis a *ᵥ f := by
  refine ⟨standardize (toCartesian (axisInv (refineAxis a)) p), ?_, ?_⟩
  · intro k
    simp only [standardize]
    exact ⟨Int.fract_nonneg _, Int.fract_lt_one _⟩
  · rw [cellPos, if_pos hr, cellAxis, if_pos hr, toCartesian_eq]

/-- **C23 (translations).** Every translation used in the search is a lattice vector. -/
theorem C23_translations (a : Mat) (cutoff : ℝ) (t : Vec ℝ) (ht : t ∈ cellTrans a cutoff) :
    t ∈ Spec.lattice a := by
  rw [← C23_lattice, mem_lattice]
  simp only [cellTrans, findTrans, List.mem_filterMap] at ht
  obtain ⟨v, _, hv⟩ := ht
  split at hv
  · cases hv; exact ⟨v, toCartesian_eq _ _⟩
  · cases hv

/-- **C23 (the crystal is the same).** The vectors between an atom and all images of another one
are the same before and after the reduction. -/
theorem C23_same_images (a : Mat) (h : a.det ≠ 0) (p q d : Vec ℝ) :
    (∃ t ∈ Spec.lattice a, d = cellPos a q - cellPos a p + t) ↔
      ∃ t ∈ Spec.lattice a, d = q - p + t := by
  have hp := C23_positions a h p
  have hq := C23_positions a h q
  constructor
  · rintro ⟨t, ht, rfl⟩
    refine ⟨(cellPos a q - q) + -(cellPos a p - p) + t,
      add_mem_lattice a (add_mem_lattice a hq (neg_mem_lattice a hp)) ht, ?_⟩
    abel
  · rintro ⟨t, ht, rfl⟩
    refine ⟨(cellPos a p - p) + -(cellPos a q - q) + t,
      add_mem_lattice a (add_mem_lattice a hp (neg_mem_lattice a hq)) ht, ?_⟩
    abel

/-- A cell on which the reduction acts. -/
def skewed : Mat := !![1, 1, 0; 0, 1, 0; 0, 0, 1]

/-- Non-vacuity of C23: a cell that is refined, with non-zero determinant. -/
example : refAny skewed ∧ skewed.det ≠ 0 := by
  constructor
  · left; left
    simp [dotc, skewed]; norm_num
  · simp [skewed, det_fin_three]

/-! ### The set of translations -/

/-- **C22 (closure).** The translations of every cell are closed under negation, as required by
the half list. -/
theorem C22_cell_neg (a : Mat) (cutoff : ℝ) :
    ((cellTrans a cutoff).map (fun t => -t)).Perm (cellTrans a cutoff) := by
  unfold cellTrans
  set A := cellAxis a
  have h : (findTrans A cutoff).map (fun t => -t) =
      ((grid (maxExp A cutoff 0) (maxExp A cutoff 1) (maxExp A cutoff 2)).map
        (fun v => -v)).filterMap (fun v =>
        let c := toCartesian A (castV v)
        open Classical in if norm3 c < maxLength A + cutoff then some c else none) := by
    rw [findTrans, List.map_filterMap, List.filterMap_map]
    apply List.filterMap_congr
    intro v _
    simp only [Function.comp, toCartesian_castV_neg, norm3_neg]
    split <;> rfl
  rw [h]
  exact (grid_neg _ _ _).filterMap _

/-- **C22 (distinct).** The translations of a non-degenerate cell are distinct. -/
theorem C22_cell_nodup (a : Mat) (h : a.det ≠ 0) (cutoff : ℝ) : (cellTrans a cutoff).Nodup := by
  unfold cellTrans findTrans
  apply (nodup_grid _ _ _).filterMap
  intro v w x hv hw
  simp only [Option.mem_def] at hv hw
  split at hv
  · split at hw
    · simp only [Option.some.injEq] at hv hw
      rw [← hv, toCartesian_eq, toCartesian_eq] at hw
      have hA : (cellAxis a).det ≠ 0 := by rw [C23_det]; exact h
      have := congrArg (fun z => axisInv (cellAxis a) *ᵥ z) hw
      simp only [mulVec_mulVec, axisInv_mul' _ hA, one_mulVec] at this
      funext k
      have hk := congrFun this k
      simp only [castV] at hk
      exact_mod_cast hk.symm
    · cases hw
  · cases hv

/-- **C22 for the whole object.** For every non-degenerate cell without lattice vectors whose
components are all below the tolerance, the expanded half list is the full list and lists no
neighbour twice. -/
theorem C22_cell (a : Mat) (h : a.det ≠ 0) (cutoff tol : ℝ) (ht : 0 < tol)
    (htol : ∀ t ∈ Spec.lattice a, tol * tol < r2 t → tol ≤ |t 0| ∨ tol ≤ |t 1| ∨ tol ≤ |t 2|)
    (pos : ℕ → Vec ℝ) (n i : ℕ) (hi : i < n) :
    let full := (neighborFull cutoff tol (cellTrans a cutoff) (fun j => cellPos a (pos j)) n).row i
    let half := neighborHalf cutoff tol (cellTrans a cutoff) (fun j => cellPos a (pos j)) n
    ((getFullList n half).row i).Perm full ∧ full.Nodup :=
  ⟨C22_half_equals_full cutoff tol ht _ _ n (C22_cell_neg a cutoff)
      (fun t htr => htol t (C23_translations a cutoff t htr)) i hi,
    C22_full_nodup cutoff tol _ (C22_cell_nodup a h cutoff) _ n i hi⟩

/-! ### C24 -/

/-- Row `k` of the inverse of the cell. -/
noncomputable def invRow (a : Mat) (k : Fin 3) : Vec ℝ := fun c => axisInv a k c

/-- The search range along axis `k` covers the cutoff: `cutoff` divided by the distance between
lattice planes is not larger than the number of cells visited. -/
def covers (a : Mat) (cutoff : ℝ) (k : Fin 3) : Prop :=
  cutoff * norm3 (invRow a k) ≤ ⌈cutoff / norm3 (toCartesian a (Pi.single k 1))⌉ + 1

/-- **C24 (partial).** If the positions are wrapped into the (reduced) cell and the search range
covers the cutoff along all axes, then every lattice translation that brings an image of atom `j`
within the cutoff of atom `i` is visited.  Missing: cells and positions not meeting these
conditions, for which the claim is false (`C24_skewed`, `C24_unwrapped`). -/
theorem C24_complete_partial (a : Mat) (h : a.det ≠ 0) (cutoff : ℝ) (hc : 0 < cutoff)
    (p q f g : Vec ℝ) (hf : ∀ k, 0 ≤ f k ∧ f k < 1) (hg : ∀ k, 0 ≤ g k ∧ g k < 1)
    (hp : p = cellAxis a *ᵥ f) (hq : q = cellAxis a *ᵥ g)
    (hcov : ∀ k, covers (cellAxis a) cutoff k)
    (t : Vec ℝ) (ht : t ∈ Spec.lattice a) (hd : r2 (q - p + t) < cutoff * cutoff) :
    t ∈ cellTrans a cutoff := by
  have hA : (cellAxis a).det ≠ 0 := by rw [C23_det]; exact h
  rw [← C23_lattice, mem_lattice] at ht
  obtain ⟨n, rfl⟩ := ht
  set A := cellAxis a with hAdef
  have hdn : norm3 (q - p + A *ᵥ castV n) < cutoff := (norm3_lt_iff _ _ hc).mpr hd
  have hfrac : q - p + A *ᵥ castV n = A *ᵥ (g - f + castV n) := by
    rw [hp, hq, mulVec_add, mulVec_sub]
  have habs : ∀ k, |g k - f k| < 1 := by
    intro k
    rw [abs_lt]
    have := hf k
    have := hg k
    constructor <;> linarith
  have hk : ∀ k, -(maxExp A cutoff k) ≤ n k ∧ n k ≤ maxExp A cutoff k := by
    intro k
    have h1 : g k - f k + (n k : ℝ) = dot3 (invRow A k) (q - p + A *ᵥ castV n) := by
      have h2 : axisInv A *ᵥ (A *ᵥ (g - f + castV n)) = g - f + castV n := by
        rw [mulVec_mulVec, axisInv_mul' A hA, one_mulVec]
      have h3 := congrFun h2 k
      rw [← hfrac] at h3
      have h4 : (g - f + castV n) k = g k - f k + (n k : ℝ) := rfl
      rw [h4] at h3
      rw [← h3]
      simp [mulVec, dotProduct, Fin.sum_univ_three, dot3, invRow]
    have h2 : |g k - f k + (n k : ℝ)| ≤ norm3 (invRow A k) * cutoff := by
      rw [h1]
      exact (dot3_le _ _).trans (mul_le_mul_of_nonneg_left (le_of_lt hdn) (norm3_nonneg _))
    have h3 := hcov k
    unfold covers at h3
    have h4 : |(n k : ℝ)| < (maxExp A cutoff k : ℝ) + 1 := by
      have h5 := abs_le.mp h2
      have h6 := abs_lt.mp (habs k)
      rw [maxExp]
      push_cast
      rw [abs_lt]
      constructor <;> nlinarith
    have h5 := abs_lt.mp h4
    constructor
    · have : -((maxExp A cutoff k : ℝ) + 1) < (n k : ℝ) := h5.1
      have : -(maxExp A cutoff k + 1) < n k := by exact_mod_cast this
      omega
    · have : (n k : ℝ) < (maxExp A cutoff k : ℝ) + 1 := h5.2
      have : n k < maxExp A cutoff k + 1 := by exact_mod_cast this
      omega
  have hnorm : norm3 (toCartesian A (castV n)) < maxLength A + cutoff := by
    have e : toCartesian A (castV n) =
        (q - p + A *ᵥ castV n) - toCartesian A (g - f) := by
      rw [toCartesian_eq, toCartesian_eq, hp, hq, mulVec_sub]; abel
    rw [e]
    have h1 := norm3_sub_le (q - p + A *ᵥ castV n) (toCartesian A (g - f))
    have h2 := cube_le_maxLength A (g - f) (fun k => le_of_lt (habs k))
    linarith
  show _ ∈ findTrans A cutoff
  simp only [findTrans, List.mem_filterMap]
  refine ⟨n, ?_, ?_⟩
  · rw [mem_grid]; exact ⟨hk 0, hk 1, hk 2⟩
  · rw [if_pos hnorm, toCartesian_eq]

/-- **C24 (list, partial).** Under the same conditions the full list holds exactly all periodic
images of all atoms between the tolerance and the cutoff. -/
theorem C24_list_partial (a : Mat) (h : a.det ≠ 0) (cutoff tol : ℝ) (hc : 0 < cutoff)
    (pos : ℕ → Vec ℝ) (n : ℕ)
    (hw : ∀ j < n, ∃ f : Vec ℝ, (∀ k, 0 ≤ f k ∧ f k < 1) ∧
      cellPos a (pos j) = cellAxis a *ᵥ f)
    (hcov : ∀ k, covers (cellAxis a) cutoff k) (i : ℕ) (hi : i < n) (j : ℕ) (d : Vec ℝ) :
    (j, d) ∈ (neighborFull cutoff tol (cellTrans a cutoff) (fun j => cellPos a (pos j)) n).row i ↔
      j < n ∧ (∃ t ∈ Spec.lattice a, d = pos j - pos i + t) ∧
        tol * tol < r2 d ∧ r2 d < cutoff * cutoff := by
  rw [C22_full_content _ _ _ _ _ _ hi]
  constructor
  · rintro ⟨hj, t, ht, hd, h1, h2⟩
    exact ⟨hj, (C23_same_images a h (pos i) (pos j) d).mp
      ⟨t, C23_translations a cutoff t ht, hd⟩, h2, h1⟩
  · rintro ⟨hj, hex, h1, h2⟩
    obtain ⟨t, ht, hd⟩ := (C23_same_images a h (pos i) (pos j) d).mpr hex
    obtain ⟨f, hf, hfe⟩ := hw i hi
    obtain ⟨g, hg, hge⟩ := hw j hj
    exact ⟨hj, t, C24_complete_partial a h cutoff hc _ _ f g hf hg hfe hge hcov t ht
      (by rw [← hd]; exact h2), hd, h2, h1⟩

/-- The range covers the cutoff when the plane distances are not much smaller than the lengths of
the axes. -/
theorem covers_of (a : Mat) (cutoff κ : ℝ) (hc : 0 < cutoff) (k : Fin 3)
    (hpos : 0 < norm3 (toCartesian a (Pi.single k 1)))
    (h1 : norm3 (invRow a k) * norm3 (toCartesian a (Pi.single k 1)) ≤ κ)
    (h2 : (κ - 1) * cutoff ≤ norm3 (toCartesian a (Pi.single k 1))) : covers a cutoff k := by
  unfold covers
  set L := norm3 (toCartesian a (Pi.single k 1))
  have hceil : cutoff / L ≤ (⌈cutoff / L⌉ : ℝ) := Int.le_ceil _
  have h3 : cutoff * norm3 (invRow a k) ≤ cutoff / L + 1 := by
    rw [← mul_le_mul_iff_left₀ hpos]
    have e : (cutoff / L + 1) * L = cutoff + L := by field_simp
    rw [e]
    nlinarith
  push_cast
  linarith

/-- **C24 (condition on the cell, partial).** The search is complete for all cutoffs with
`(κ − 1) cutoff ≤ |a_k|`, where `κ` bounds the ratio of the length of an axis to the distance of
its lattice planes. -/
theorem C24_ratio_partial (a : Mat) (h : a.det ≠ 0) (cutoff tol κ : ℝ) (hc : 0 < cutoff)
    (pos : ℕ → Vec ℝ) (n : ℕ)
    (hw : refAny a ∨ ∀ j < n, ∃ f : Vec ℝ, (∀ k, 0 ≤ f k ∧ f k < 1) ∧ pos j = a *ᵥ f)
    (h1 : ∀ k, norm3 (invRow (cellAxis a) k) *
      norm3 (toCartesian (cellAxis a) (Pi.single k 1)) ≤ κ)
    (h2 : ∀ k, (κ - 1) * cutoff ≤ norm3 (toCartesian (cellAxis a) (Pi.single k 1)))
    (i : ℕ) (hi : i < n) (j : ℕ) (d : Vec ℝ) :
    (j, d) ∈ (neighborFull cutoff tol (cellTrans a cutoff) (fun j => cellPos a (pos j)) n).row i ↔
      j < n ∧ (∃ t ∈ Spec.lattice a, d = pos j - pos i + t) ∧
        tol * tol < r2 d ∧ r2 d < cutoff * cutoff := by
  have hA : (cellAxis a).det ≠ 0 := by rw [C23_det]; exact h
  refine C24_list_partial a h cutoff tol hc pos n ?_ ?_ i hi j d
  · intro j hj
    by_cases hr : refAny a
    · exact C23_wrapped a hr (pos j)
    · rcases hw with hw | hw
      · exact absurd hw hr
      · obtain ⟨f, hf, he⟩ := hw j hj
        exact ⟨f, hf, by rw [cellPos, if_neg hr, cellAxis, if_neg hr]; exact he⟩
  · intro k
    refine covers_of _ cutoff κ hc k ?_ (h1 k) (h2 k)
    rcases lt_or_eq_of_le (norm3_nonneg (toCartesian (cellAxis a) (Pi.single k 1))) with h0 | h0
    · exact h0
    · exfalso
      have hz : r2 (toCartesian (cellAxis a) (Pi.single k 1)) = 0 := by
        rw [← norm3_sq, ← h0, mul_zero]
      have hv : cellAxis a *ᵥ Pi.single k 1 = 0 := by
        rw [← toCartesian_eq]
        set v := toCartesian (cellAxis a) (Pi.single k 1)
        unfold r2 at hz
        have a0 := mul_self_nonneg (v 0)
        have a1 := mul_self_nonneg (v 1)
        have a2 := mul_self_nonneg (v 2)
        funext r
        fin_cases r
        · exact mul_self_eq_zero.mp (by linarith : v 0 * v 0 = 0)
        · exact mul_self_eq_zero.mp (by linarith : v 1 * v 1 = 0)
        · exact mul_self_eq_zero.mp (by linarith : v 2 * v 2 = 0)
      have := congrArg (fun z => axisInv (cellAxis a) *ᵥ z) hv
      simp only [mulVec_mulVec, axisInv_mul' _ hA, one_mulVec, mulVec_zero] at this
      have := congrFun this k
      simp at this

/-- Orthogonal axes: the plane distance is the length. -/
theorem ortho_ratio (a : Mat) (h : a.det ≠ 0) (h01 : dotc a 0 1 = 0) (h02 : dotc a 0 2 = 0)
    (h12 : dotc a 1 2 = 0) (k : Fin 3) :
    norm3 (invRow a k) * norm3 (toCartesian a (Pi.single k 1)) = 1 := by
  have hI := axisInv_mul' a h
  have hT : ∀ c, dotc a k k * invRow a k c = a c k := by
    have hG : aᵀ * a = Matrix.diagonal (fun k => dotc a k k) := by
      ext i j
      have h10 : dotc a 1 0 = 0 := by rw [← h01]; simp only [dotc]; ring
      have h20 : dotc a 2 0 = 0 := by rw [← h02]; simp only [dotc]; ring
      have h21 : dotc a 2 1 = 0 := by rw [← h12]; simp only [dotc]; ring
      have hij : (aᵀ * a) i j = dotc a i j := by
        simp [mul_apply, Fin.sum_univ_three, dotc]
      rw [hij]
      fin_cases i <;> fin_cases j <;> simp [h01, h02, h12, h10, h20, h21]
    have hD : Matrix.diagonal (fun k => dotc a k k) * axisInv a = aᵀ := by
      rw [← hG, Matrix.mul_assoc, axisInv_mul a h, Matrix.mul_one]
    intro c
    have := congrFun (congrFun hD k) c
    rw [diagonal_mul] at this
    exact this
  have hcol : toCartesian a (Pi.single k 1) = fun c => a c k := by
    rw [toCartesian_eq]; funext c; simp
  have hprod : dot3 (invRow a k) (fun c => a c k) = 1 := by
    have := congrFun (congrFun hI k) k
    simpa [mul_apply, Fin.sum_univ_three, dot3, invRow] using this
  have hr : r2 (fun c => a c k) = dotc a k k := rfl
  have hD : dotc a k k * r2 (invRow a k) = 1 := by
    have e : dotc a k k * r2 (invRow a k) = dot3 (invRow a k) (fun c => a c k) := by
      simp only [r2, dot3]
      rw [← hT 0, ← hT 1, ← hT 2]; ring
    rw [e, hprod]
  rw [hcol, norm3, norm3, ← Real.sqrt_mul (r2_nonneg _), hr, mul_comm, hD, Real.sqrt_one]

/-- **C24 (orthogonal cells, partial).** For orthogonal axes and wrapped positions the list is
complete for every cutoff. -/
theorem C24_orthogonal_partial (a : Mat) (h : a.det ≠ 0) (h01 : dotc a 0 1 = 0)
    (h02 : dotc a 0 2 = 0) (h12 : dotc a 1 2 = 0) (cutoff tol : ℝ) (hc : 0 < cutoff)
    (pos : ℕ → Vec ℝ) (n : ℕ)
    (hw : ∀ j < n, ∃ f : Vec ℝ, (∀ k, 0 ≤ f k ∧ f k < 1) ∧ pos j = a *ᵥ f)
    (i : ℕ) (hi : i < n) (j : ℕ) (d : Vec ℝ) :
    (j, d) ∈ (neighborFull cutoff tol (cellTrans a cutoff) (fun j => cellPos a (pos j)) n).row i ↔
      j < n ∧ (∃ t ∈ Spec.lattice a, d = pos j - pos i + t) ∧
        tol * tol < r2 d ∧ r2 d < cutoff * cutoff := by
  have hnn : ∀ k, 0 ≤ dotc a k k := by
    intro k; simp only [dotc]
    nlinarith [mul_self_nonneg (a 0 k), mul_self_nonneg (a 1 k), mul_self_nonneg (a 2 k)]
  have hnr : ¬ refAny a := by
    rintro ((hh | hh) | (hh | hh) | (hh | hh)) <;>
      simp only [h01, h02, h12, abs_zero] at hh <;>
      · have := hnn 0
        have := hnn 1
        have := hnn 2
        linarith
  have hax : cellAxis a = a := by rw [cellAxis, if_neg hnr]
  refine C24_ratio_partial a h cutoff tol 1 hc pos n (Or.inr hw) ?_ ?_ i hi j d
  · intro k; rw [hax]; exact (ortho_ratio a h h01 h02 h12 k).le
  · intro k; rw [sub_self, zero_mul]; exact norm3_nonneg _

/-- Non-vacuity of C24: a cubic cell with two wrapped atoms. -/
example : (1 : Mat).det ≠ 0 ∧ dotc 1 0 1 = 0 ∧ dotc 1 0 2 = 0 ∧ dotc 1 1 2 = 0 ∧
    ∀ j < 2, ∃ f : Vec ℝ, (∀ k, 0 ≤ f k ∧ f k < 1) ∧
      (fun j : ℕ => if j = 0 then (0 : Vec ℝ) else ![1/2, 1/2, 1/2]) j = (1 : Mat) *ᵥ f := by
  refine ⟨by simp, by simp [dotc], by simp [dotc], by simp [dotc], ?_⟩
  intro j hj
  by_cases h : j = 0
  · exact ⟨0, fun k => by simp, by simp [h]⟩
  · refine ⟨![1/2, 1/2, 1/2], fun k => ?_, by simp [h]⟩
    fin_cases k <;> norm_num

/-- A cell whose axes are pairwise reduced but whose body diagonal is short. -/
def flat : Mat := !![10, -5, -5; 0, 9, -8; 0, 0, 4]

/-- **C24 (violation).** For the cell `flat` with cutoff 20 the reduction does nothing and the
image of an atom at `4 (a + b + c) = (0, 4, 16)`, at distance `√272 < 20`, is not visited. -/
theorem C24_skewed :
    ¬ refAny flat ∧ flat.det ≠ 0 ∧ (![0, 4, 16] : Vec ℝ) ∈ Spec.lattice flat ∧
    r2 (![0, 4, 16] : Vec ℝ) < 20 * 20 ∧ (![0, 4, 16] : Vec ℝ) ∉ cellTrans flat 20 := by
  have hnr : ¬ refAny flat := by
    rintro ((hh | hh) | (hh | hh) | (hh | hh)) <;> simp [dotc, flat] at hh <;> norm_num at hh
  refine ⟨hnr, by simp [flat, det_fin_three], ?_, by simp [r2]; norm_num, ?_⟩
  · rw [mem_lattice]
    refine ⟨![4, 4, 4], ?_⟩
    funext r
    fin_cases r <;> simp [flat, mulVec, dotProduct, Fin.sum_univ_three, castV] <;> norm_num
  · intro hm
    simp only [cellTrans, findTrans, List.mem_filterMap] at hm
    obtain ⟨v, hv, he⟩ := hm
    rw [cellAxis, if_neg hnr] at hv he
    have hmx : maxExp flat 20 0 = 3 := by
      have hn : norm3 (toCartesian flat (Pi.single 0 1)) = 10 := by
        have : r2 (toCartesian flat (Pi.single 0 1)) = 10 * 10 := by
          simp [r2, toCartesian, flat]
        rw [norm3, this, Real.sqrt_mul_self (by norm_num)]
      rw [maxExp, hn]
      norm_num
    rw [mem_grid, hmx] at hv
    split at he
    · simp only [Option.some.injEq] at he
      have e0 := congrFun he 0
      have e1 := congrFun he 1
      have e2 := congrFun he 2
      simp [toCartesian, flat, castV] at e0 e1 e2
      have h2 : (v 2 : ℝ) = 4 := by linarith
      have h1 : (v 1 : ℝ) = 4 := by linarith
      have h0 : (v 0 : ℝ) = 4 := by linarith
      have : v 0 = 4 := by exact_mod_cast h0
      omega
    · cases he

/-- **C24 (violation).** Positions outside an orthogonal cell are not wrapped: of two atoms at
distance 1/4 (modulo the lattice) none is a neighbour of the other. -/
theorem C24_unwrapped :
    let a : Mat := 1
    let pos : ℕ → Vec ℝ := fun j => if j = 0 then 0 else ![41/4, 0, 0]
    (∃ t ∈ Spec.lattice a, r2 (pos 1 - pos 0 + t) = (1/4) ^ 2) ∧
    ∀ d, (1, d) ∉
      (neighborFull (1/2) (1/10) (cellTrans a (1/2)) (fun j => cellPos a (pos j)) 2).row 0 := by
  intro a pos
  have hnr : ¬ refAny a := by
    rintro ((hh | hh) | (hh | hh) | (hh | hh)) <;> simp [dotc, a] at hh <;> norm_num at hh
  refine ⟨⟨![-10, 0, 0], ?_, ?_⟩, ?_⟩
  · rw [mem_lattice]
    refine ⟨![-10, 0, 0], ?_⟩
    funext r
    fin_cases r <;> simp [a, castV]
  · simp [pos, r2]; norm_num
  · intro d hd
    rw [C22_full_content _ _ _ _ _ _ (by norm_num)] at hd
    obtain ⟨_, t, ht, he, hc, _⟩ := hd
    simp only [cellTrans, findTrans, List.mem_filterMap] at ht
    obtain ⟨v, hv, hq⟩ := ht
    rw [cellAxis, if_neg hnr] at hv hq
    have hmx : maxExp a (1/2) 0 = 2 := by
      have hn : norm3 (toCartesian a (Pi.single 0 1)) = 1 := by
        simp [norm3, r2, toCartesian, a]
      rw [maxExp, hn]
      have : ⌈(1/2 : ℝ) / 1⌉ = 1 := by
        rw [Int.ceil_eq_iff]; norm_num
      rw [this]; norm_num
    rw [mem_grid, hmx] at hv
    split at hq
    · simp only [Option.some.injEq] at hq
      have e0 := congrFun hq 0
      simp [toCartesian, a, castV] at e0
      have hd0 : d 0 = 41/4 + t 0 := by
        rw [he]; simp [cellPos, if_neg hnr, pos]
      have hv0 : (-2 : ℝ) ≤ (v 0 : ℝ) := by exact_mod_cast hv.1.1
      have : (8 : ℝ) ≤ d 0 := by rw [hd0, ← e0]; linarith
      unfold r2 at hc
      nlinarith [mul_self_nonneg (d 1), mul_self_nonneg (d 2)]
    · cases hq

end Verif.Neighbor
