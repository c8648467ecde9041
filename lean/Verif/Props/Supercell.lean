import Verif.Model.Supercell
import Verif.Spec.Crystal
import Mathlib.Algebra.Order.Floor.Ring
import Mathlib.Data.Rat.Floor
import Mathlib.Tactic.FieldSimp
import Mathlib.Tactic.Ring
import Mathlib.Tactic.Linarith
import Mathlib.Tactic.LinearCombination
import Mathlib.Data.List.Nodup
import Mathlib.Algebra.BigOperators.Ring.List
import Mathlib.Algebra.BigOperators.Group.List.Basic
import Mathlib.Algebra.Order.Field.Rat

/-!
C41: a diagonal supercell describes the same crystal.
-/

namespace Verif.Supercell
open Verif.Spec
variable {K : Type} [Field K] [LinearOrder K] [IsStrictOrderedRing K] [FloorRing K]

/-- Refining changes a coordinate by an integer and brings it into `(-tol, 1 - tol]`. -/
theorem refine1_spec (tol x : K) (h0 : 0 < tol) (h1 : tol < 1) :
    (∃ k : ℤ, refine1 tol x = x + k) ∧ -tol < refine1 tol x ∧ refine1 tol x ≤ 1 - tol := by
  have hl := Int.floor_le x
  have hu := Int.lt_floor_add_one x
  unfold refine1
  simp only
  split_ifs with h
  · exact ⟨⟨-⌊x⌋ - 1, by push_cast; ring⟩, by linarith, by linarith⟩
  · exact ⟨⟨-⌊x⌋, by push_cast; ring⟩, by linarith, by linarith [not_lt.mp h]⟩

omit [LinearOrder K] [IsStrictOrderedRing K] [FloorRing K] in
theorem typed_flatMap {α β γ δ : Type} (n : ℕ) (ts : List α) (es : List β) (ps : List γ)
    (f : γ → List δ) (hf : ∀ p, (f p).length = n) (h1 : ts.length = es.length) (h2 : es.length = ps.length) :
    (repeatEach n ts).zip ((repeatEach n es).zip (ps.flatMap f)) =
      (ts.zip (es.zip ps)).flatMap fun a => (f a.2.2).map fun q => (a.1, a.2.1, q) := by
  unfold repeatEach
  induction ts generalizing es ps with
  | nil => simp
  | cons t ts ih =>
    cases es with
    | nil => simp at h1
    | cons e es =>
      cases ps with
      | nil => simp at h2
      | cons p ps =>
        simp only [List.flatMap_cons, List.zip_cons_cons]
        rw [List.zip_append (by simp [hf]), List.zip_append (by simp [hf]),
          ih es ps (by simpa using h1) (by simpa using h2)]
        congr 1
        have hn := hf p
        clear hf ih
        generalize f p = l at hn
        subst hn
        induction l with
        | nil => simp
        | cons q l ih2 => simpa [List.replicate_succ] using ih2

theorem length_translations (nx ny nz : ℕ) : (translations nx ny nz).length = nx * ny * nz := by
  unfold translations
  simp only [List.length_flatMap, List.length_map, List.length_range, List.map_const', List.sum_replicate,
    smul_eq_mul]
  ring

theorem mem_translations (nx ny nz : ℕ) (t : ℕ × ℕ × ℕ) :
    t ∈ translations nx ny nz ↔ t.1 < nx ∧ t.2.1 < ny ∧ t.2.2 < nz := by
  obtain ⟨a, b, c⟩ := t
  unfold translations
  simp only [List.mem_flatMap, List.mem_range, List.mem_map, Prod.mk.injEq]
  constructor
  · rintro ⟨z, hz, y, hy, x, hx, rfl, rfl, rfl⟩; exact ⟨hx, hy, hz⟩
  · rintro ⟨hx, hy, hz⟩; exact ⟨c, hz, b, hy, a, hx, rfl, rfl, rfl⟩

theorem nodup_translations (nx ny nz : ℕ) : (translations nx ny nz).Nodup := by
  unfold translations
  rw [List.nodup_flatMap]
  refine ⟨fun z _ => ?_, ?_⟩
  · rw [List.nodup_flatMap]
    refine ⟨fun y _ => List.nodup_range.map fun a b h => by simpa using h, ?_⟩
    refine List.nodup_range.imp ?_
    intro a b hab t ht ht'
    rw [List.mem_map] at ht ht'
    obtain ⟨x, -, rfl⟩ := ht
    obtain ⟨x', -, h⟩ := ht'
    simp only [Prod.mk.injEq] at h
    exact hab h.2.1.symm
  · refine List.nodup_range.imp ?_
    intro a b hab t ht ht'
    simp only [List.mem_flatMap, List.mem_map, Prod.mk.injEq] at ht ht'
    obtain ⟨y, -, x, -, rfl⟩ := ht
    obtain ⟨y', -, x', -, h⟩ := ht'
    simp only [Prod.mk.injEq] at h
    exact hab h.2.2.symm

theorem typedAtoms_diagonal (tol : K) (st : Structure K) (hwf : st.WF) (nx ny nz : ℕ) :
    typedAtoms (diagonal tol st nx ny nz) = (typedAtoms st).flatMap fun a =>
      (translations nx ny nz).map fun t => (a.1, a.2.1, refine tol (place nx ny nz a.2.2 t)) := by
  obtain ⟨h1, h2, -⟩ := hwf
  unfold typedAtoms diagonal
  simp only
  rw [List.map_flatMap]
  rw [typed_flatMap (nx * ny * nz) st.types st.elements st.positions _
    (fun p => by simp [length_translations]) h2.symm h1.symm]
  congr 1
  funext a
  simp [List.map_map, Function.comp_def]

/-- **C41.** Every atom of the cell has exactly one image per translation, listed atom by atom with
the same type and element.  An image is `(position + translation) / size` up to integers and lies in
`(-tol, 1 - tol]` (the code's version of `[0, 1)`). -/
theorem C41_images (tol : K) (h0 : 0 < tol) (h1 : tol < 1) (st : Structure K) (hwf : st.WF)
    (nx ny nz : ℕ) :
    ∃ image : V3 K → ℕ × ℕ × ℕ → V3 K,
      (∀ p t, SameSite ⟨(p.x + (t.1 : K)) / nx, (p.y + (t.2.1 : K)) / ny, (p.z + (t.2.2 : K)) / nz⟩ (image p t) ∧
        (-tol < (image p t).x ∧ (image p t).x ≤ 1 - tol) ∧ (-tol < (image p t).y ∧ (image p t).y ≤ 1 - tol) ∧
        (-tol < (image p t).z ∧ (image p t).z ≤ 1 - tol)) ∧
      ∃ trans : List (ℕ × ℕ × ℕ), trans.Nodup ∧
        (∀ t, t ∈ trans ↔ t.1 < nx ∧ t.2.1 < ny ∧ t.2.2 < nz) ∧
        typedAtoms (diagonal tol st nx ny nz) = (typedAtoms st).flatMap fun a =>
          trans.map fun t => (a.1, a.2.1, image a.2.2 t) := by
  refine ⟨fun p t => refine tol (place nx ny nz p t), fun p t => ?_, translations nx ny nz,
    nodup_translations _ _ _, mem_translations _ _ _, typedAtoms_diagonal tol st hwf nx ny nz⟩
  obtain ⟨⟨a, ha⟩, ha'⟩ := refine1_spec tol ((p.x + (t.1 : K)) / nx) h0 h1
  obtain ⟨⟨b, hb⟩, hb'⟩ := refine1_spec tol ((p.y + (t.2.1 : K)) / ny) h0 h1
  obtain ⟨⟨c, hc⟩, hc'⟩ := refine1_spec tol ((p.z + (t.2.2 : K)) / nz) h0 h1
  refine ⟨⟨(a, b, c), ?_⟩, ha', hb', hc'⟩
  simp only [refine, place, shift, ha, hb, hc]

theorem coord_forward (s t : ℕ) (hs : 0 < s) (x y : K) (k m : ℤ) (hy : y = (x + t) / s + k) :
    (s : K) * (y + m) = x + (((t : ℤ) + s * (k + m) : ℤ) : K) := by
  have : (s : K) ≠ 0 := by exact_mod_cast hs.ne'
  rw [hy]; push_cast; field_simp; ring

/-- **C41.** The supercell describes the same crystal: the same atoms (type, element) at the same
cartesian points of space. -/
theorem C41_same_crystal (tol : K) (h0 : 0 < tol) (h1 : tol < 1) (st : Structure K) (hwf : st.WF)
    (nx ny nz : ℕ) (hx : 0 < nx) (hy : 0 < ny) (hz : 0 < nz) :
    crystal (diagonal tol st nx ny nz) = crystal st := by
  have hax : ∀ v : V3 K, cart (diagonal tol st nx ny nz).axis v =
      cart st.axis ⟨(nx : K) * v.x, (ny : K) * v.y, (nz : K) * v.z⟩ := by
    intro v; simp only [diagonal, scaleAxis, cart, V3.mk.injEq]; refine ⟨?_, ?_, ?_⟩ <;> ring
  ext x
  simp only [crystal, Set.mem_setOf_eq, typedAtoms_diagonal tol st hwf, List.mem_flatMap, List.mem_map]
  constructor
  · rintro ⟨b, ⟨a, ha, t, ht, rfl⟩, m, rfl⟩
    obtain ⟨⟨k1, e1⟩, -⟩ := refine1_spec tol ((a.2.2.x + (t.1 : K)) / nx) h0 h1
    obtain ⟨⟨k2, e2⟩, -⟩ := refine1_spec tol ((a.2.2.y + (t.2.1 : K)) / ny) h0 h1
    obtain ⟨⟨k3, e3⟩, -⟩ := refine1_spec tol ((a.2.2.z + (t.2.2 : K)) / nz) h0 h1
    refine ⟨a, ha, ((t.1 : ℤ) + nx * (k1 + m.1), (t.2.1 : ℤ) + ny * (k2 + m.2.1), (t.2.2 : ℤ) + nz * (k3 + m.2.2)), ?_⟩
    simp only [hax, Prod.mk.injEq, true_and]
    congr 1
    simp only [shift, refine, place, V3.mk.injEq]
    exact ⟨coord_forward nx t.1 hx _ _ k1 _ e1, coord_forward ny t.2.1 hy _ _ k2 _ e2,
      coord_forward nz t.2.2 hz _ _ k3 _ e3⟩
  · rintro ⟨a, ha, m, rfl⟩
    have hdm : ∀ (s : ℕ) (m : ℤ), 0 < s → ∃ (t : ℕ) (q : ℤ), t < s ∧ m = t + s * q := by
      intro s m hs
      refine ⟨(m % s).toNat, m / s, ?_, ?_⟩
      · have := Int.emod_lt_of_pos m (by exact_mod_cast hs : (0:ℤ) < s)
        have := Int.emod_nonneg m (by exact_mod_cast hs.ne' : (s:ℤ) ≠ 0)
        omega
      · have h1 := Int.emod_add_mul_ediv m s
        have := Int.emod_nonneg m (by exact_mod_cast hs.ne' : (s:ℤ) ≠ 0)
        rw [Int.toNat_of_nonneg this]; exact h1.symm
    obtain ⟨t1, q1, l1, f1⟩ := hdm nx m.1 hx
    obtain ⟨t2, q2, l2, f2⟩ := hdm ny m.2.1 hy
    obtain ⟨t3, q3, l3, f3⟩ := hdm nz m.2.2 hz
    obtain ⟨⟨k1, e1⟩, -⟩ := refine1_spec tol ((a.2.2.x + (t1 : K)) / nx) h0 h1
    obtain ⟨⟨k2, e2⟩, -⟩ := refine1_spec tol ((a.2.2.y + (t2 : K)) / ny) h0 h1
    obtain ⟨⟨k3, e3⟩, -⟩ := refine1_spec tol ((a.2.2.z + (t3 : K)) / nz) h0 h1
    refine ⟨_, ⟨a, ha, (t1, t2, t3), (mem_translations _ _ _ _).2 ⟨l1, l2, l3⟩, rfl⟩, (q1 - k1, q2 - k2, q3 - k3), ?_⟩
    simp only [hax, Prod.mk.injEq, true_and]
    congr 1
    simp only [shift, refine, place, V3.mk.injEq]
    rw [coord_forward nx t1 hx _ _ k1 _ e1, coord_forward ny t2 hy _ _ k2 _ e2,
      coord_forward nz t3 hz _ _ k3 _ e3, f1, f2, f3]
    refine ⟨?_, ?_, ?_⟩ <;> (push_cast; ring)

/-- **C41.** No two atoms of the supercell share a site if no two atoms of the cell do. -/
theorem C41_distinct_sites (tol : K) (h0 : 0 < tol) (h1 : tol < 1) (st : Structure K) (hwf : st.WF)
    (nx ny nz : ℕ) (hx : 0 < nx) (hy : 0 < ny) (hz : 0 < nz) (hd : DistinctSites st) :
    DistinctSites (diagonal tol st nx ny nz) := by
  have key : ∀ (s t t' : ℕ) (x x' : K) (m : ℤ), 0 < s →
      refine1 tol ((x' + t') / s) = refine1 tol ((x + t) / s) + m →
      ∃ q : ℤ, x' + t' = x + t + ((s * q : ℤ) : K) := by
    intro s t t' x x' m hs he
    obtain ⟨⟨k, e⟩, -⟩ := refine1_spec tol ((x + t) / s) h0 h1
    obtain ⟨⟨k', e'⟩, -⟩ := refine1_spec tol ((x' + t') / s) h0 h1
    have hs' : (s : K) ≠ 0 := by exact_mod_cast hs.ne'
    rw [e, e'] at he
    refine ⟨k - k' + m, ?_⟩
    have : (x' + t') / s = (x + t) / s + ((k - k' + m : ℤ) : K) := by push_cast; linear_combination he
    rw [div_eq_iff hs'] at this
    rw [this, add_mul, div_mul_cancel₀ _ hs']; push_cast; ring
  unfold DistinctSites
  rw [typedAtoms_diagonal tol st hwf, List.pairwise_flatMap]
  refine ⟨fun a _ => ?_, hd.imp ?_⟩
  · rw [List.pairwise_map]
    refine (nodup_translations nx ny nz).imp_of_mem ?_
    rintro t t' ht ht' hne ⟨m, hm⟩
    rw [mem_translations] at ht ht'
    simp only [refine, place, shift, V3.mk.injEq] at hm
    have aux : ∀ (s t t' : ℕ) (x : K) (m : ℤ), 0 < s → t < s → t' < s →
        refine1 tol ((x + t') / s) = refine1 tol ((x + t) / s) + m → t = t' := by
      intro s t t' x m hs hts hts' he
      obtain ⟨q, hq⟩ := key s t t' x x m hs he
      have hq' : ((t' : ℤ) : K) = ((t + s * q : ℤ) : K) := by push_cast at hq ⊢; linear_combination hq
      have hz' : (t' : ℤ) = t + s * q := by exact_mod_cast hq'
      have : (t' : ℤ) % s = t % s := by rw [hz']; simp
      rw [Int.emod_eq_of_lt (by omega) (by omega), Int.emod_eq_of_lt (by omega) (by omega)] at this
      omega
    apply hne
    refine Prod.ext (aux nx _ _ _ _ hx ht.1 ht'.1 hm.1) (Prod.ext (aux ny _ _ _ _ hy ht.2.1 ht'.2.1 hm.2.1)
      (aux nz _ _ _ _ hz ht.2.2 ht'.2.2 hm.2.2))
  · intro a b hab u hu v hv
    rw [List.mem_map] at hu hv
    obtain ⟨t, -, rfl⟩ := hu
    obtain ⟨t', -, rfl⟩ := hv
    rintro ⟨m, hm⟩
    simp only [refine, place, shift, V3.mk.injEq] at hm
    obtain ⟨q1, e1⟩ := key nx _ _ _ _ _ hx hm.1
    obtain ⟨q2, e2⟩ := key ny _ _ _ _ _ hy hm.2.1
    obtain ⟨q3, e3⟩ := key nz _ _ _ _ _ hz hm.2.2
    apply hab
    refine ⟨((t.1 : ℤ) - t'.1 + nx * q1, (t.2.1 : ℤ) - t'.2.1 + ny * q2, (t.2.2 : ℤ) - t'.2.2 + nz * q3), ?_⟩
    obtain ⟨_, _, ⟨bx, by', bz⟩⟩ := b
    simp only [shift, V3.mk.injEq] at e1 e2 e3 ⊢
    push_cast at e1 e2 e3 ⊢
    exact ⟨by linear_combination e1, by linear_combination e2, by linear_combination e3⟩

omit [IsStrictOrderedRing K] in
/-- **C41.** Sizes, counts and volume of the supercell. -/
theorem C41_counts (tol : K) (st : Structure K) (hwf : st.WF) (nx ny nz : ℕ) :
    (diagonal tol st nx ny nz).WF ∧
      (diagonal tol st nx ny nz).elements.length = st.elements.length * (nx * ny * nz) ∧
      (diagonal tol st nx ny nz).nAtoms = st.nAtoms.map (fun n => n * (nx * ny * nz)) ∧
      (st.volume = st.axis.det → (diagonal tol st nx ny nz).volume = (diagonal tol st nx ny nz).axis.det) := by
  obtain ⟨h1, h2, h3⟩ := hwf
  have hr : ∀ {α : Type} (xs : List α) (n : ℕ), (repeatEach n xs).length = xs.length * n := by
    intro α xs n; simp [repeatEach, List.length_flatMap]
  have hsum : ∀ (xs : List ℕ) (n : ℕ), (xs.map (· * n)).sum = xs.sum * n := by
    intro xs n; rw [List.sum_map_mul_right, List.map_id']
  refine ⟨⟨?_, ?_, ?_⟩, hr _ _, rfl, fun hv => ?_⟩
  · simp only [diagonal]
    rw [hr, List.length_map, List.length_flatMap]
    simp [length_translations, h1]
  · simp only [diagonal]; rw [hr, hr, h2]
  · simp only [diagonal]; rw [hr, hsum, h3]
  · simp only [diagonal, scaleAxis, M3.det, hv]; push_cast; ring

omit [IsStrictOrderedRing K] in
/-- **C41.** A vector and the diagonal matrix of the same numbers give the same supercell, with
`get_supercell_size` times as many atoms; negative sizes and other shapes raise. -/
theorem C41_sizes (phonopy : Structure K → M3 ℤ → Structure K) (tol : K) (st : Structure K)
    (hwf : st.WF) (x y z : ℤ) :
    getSupercell phonopy tol st (.mat ⟨⟨x, 0, 0⟩, ⟨0, y, 0⟩, ⟨0, 0, z⟩⟩) =
      getSupercell phonopy tol st (.vec x y z) ∧
    (0 ≤ x → 0 ≤ y → 0 ≤ z → ∃ sup n, getSupercell phonopy tol st (.vec x y z) = .ok sup ∧
      supercellSize (.vec x y z) = .ok n ∧
      supercellSize (.mat ⟨⟨x, 0, 0⟩, ⟨0, y, 0⟩, ⟨0, 0, z⟩⟩) = .ok n ∧
      (sup.elements.length : ℤ) = st.elements.length * n) ∧
    (x < 0 ∨ y < 0 ∨ z < 0 → getSupercell phonopy tol st (.vec x y z) = .error .valueError) ∧
    getSupercell phonopy tol st .other = .error .runtimeError := by
  refine ⟨by simp [getSupercell, isDiagonal], fun hx hy hz => ?_, fun h => ?_, rfl⟩
  · refine ⟨diagonal tol st x.toNat y.toNat z.toNat, x * y * z, ?_, rfl, ?_, ?_⟩
    · simp only [getSupercell, diagonalZ]; rw [if_neg (by omega)]
    · simp only [supercellSize, M3.det]; congr 1; ring
    · rw [(C41_counts tol st hwf _ _ _).2.1]
      push_cast
      rw [Int.toNat_of_nonneg hx, Int.toNat_of_nonneg hy, Int.toNat_of_nonneg hz]
  · simp only [getSupercell, diagonalZ]; rw [if_pos h]

/-- **C41.** A matrix with any off-diagonal entry is expanded by phonopy, and its positions are
brought into the cell by whole lattice translations (`refine1_spec`). -/
theorem C41_non_diagonal (phonopy : Structure K → M3 ℤ → Structure K) (tol : K) (st : Structure K) (m : M3 ℤ)
    (h : ¬ (m.r0.y = 0 ∧ m.r0.z = 0 ∧ m.r1.x = 0 ∧ m.r1.z = 0 ∧ m.r2.x = 0 ∧ m.r2.y = 0)) :
    getSupercell phonopy tol st (.mat m) =
        .ok { phonopy st m with positions := (phonopy st m).positions.map (refine tol) } ∧
      supercellSize (.mat m) = .ok m.det := by
  have hd : isDiagonal m = false := by
    rw [← Bool.not_eq_true]
    intro hd
    apply h
    simpa [isDiagonal, and_assoc] using hd
  refine ⟨?_, rfl⟩
  simp only [getSupercell, hd, Bool.false_eq_true, if_false]

example : isDiagonal ⟨⟨1, 0, 0⟩, ⟨0, 2, 0⟩, ⟨0, 1, 1⟩⟩ = false := by decide

/-- A two-atom cell doubled along x: hypotheses hold and the images are as expected. -/
example :
    let st : Structure ℚ := ⟨⟨⟨1, 0, 0⟩, ⟨0, 1, 0⟩, ⟨0, 0, 1⟩⟩, [⟨0, 0, 0⟩, ⟨1/2, 1/2, 3/2⟩], [1, 1],
      ["A", "B"], [0, 1], 1, none⟩
    st.WF ∧ (diagonal (1/1000) st 2 1 1).positions = [⟨0, 0, 0⟩, ⟨1/2, 0, 0⟩, ⟨1/4, 1/2, 1/2⟩, ⟨3/4, 1/2, 1/2⟩] ∧
      (diagonal (1/1000) st 2 1 1).elements = ["A", "A", "B", "B"] ∧
      (diagonal (1/1000) st 2 1 1).axis = ⟨⟨2, 0, 0⟩, ⟨0, 1, 0⟩, ⟨0, 0, 1⟩⟩ := by decide +kernel

end Verif.Supercell
