import Verif.Props.SameCrystalEval
import Verif.Props.Supercell

/-!
# C123: descriptions of one crystal
-/

namespace Verif.SameCrystal
open Verif Verif.Mlp
open Verif.Neighbor (Vec Csr r2 mkCsr neighborHalf neighborFull Mat cellTrans cellPos cellAxis refAny dotc norm3
  invRow toCartesian)
open Matrix

/-! ## The search -/

/-- **C123.**  The search finds all neighbours in cells that are not too skewed. -/
theorem C123_search (a : Mat) (h : a.det ≠ 0) (cutoff tol κ : ℝ) (hc : 0 < cutoff) (pos : ℕ → Vec ℝ) (n : ℕ)
    (hw : refAny a ∨ ∀ j < n, ∃ f : Vec ℝ, (∀ k, 0 ≤ f k ∧ f k < 1) ∧ pos j = a *ᵥ f)
    (h1 : ∀ k, norm3 (invRow (cellAxis a) k) * norm3 (toCartesian (cellAxis a) (Pi.single k 1)) ≤ κ)
    (h2 : ∀ k, (κ - 1) * cutoff ≤ norm3 (toCartesian (cellAxis a) (Pi.single k 1))) :
    Spec.AllNeighbors n pos (Spec.lattice a) cutoff tol (fullList a cutoff tol pos n).row :=
  fun i hi => ⟨Neighbor.C22_full_nodup cutoff tol _ (Neighbor.C22_cell_nodup a h cutoff) _ n i hi,
    fun j d => Neighbor.C24_ratio_partial a h cutoff tol κ hc pos n hw h1 h2 i hi j d⟩

/-- **C123.**  The search finds all neighbours of atoms inside an orthogonal cell of any size. -/
theorem C123_search_orthogonal (a : Mat) (h : a.det ≠ 0) (h01 : dotc a 0 1 = 0) (h02 : dotc a 0 2 = 0)
    (h12 : dotc a 1 2 = 0) (cutoff tol : ℝ) (hc : 0 < cutoff) (pos : ℕ → Vec ℝ) (n : ℕ)
    (hw : ∀ j < n, ∃ f : Vec ℝ, (∀ k, 0 ≤ f k ∧ f k < 1) ∧ pos j = a *ᵥ f) :
    Spec.AllNeighbors n pos (Spec.lattice a) cutoff tol (fullList a cutoff tol pos n).row :=
  fun i hi => ⟨Neighbor.C22_full_nodup cutoff tol _ (Neighbor.C22_cell_nodup a h cutoff) _ n i hi,
    fun j d => Neighbor.C24_orthogonal_partial a h h01 h02 h12 cutoff tol hc pos n hw i hi j d⟩

/-! ## Order, origin, images and axes -/

theorem filter_eq_one {n : ℕ} {f : ℕ → ℕ} {j i : ℕ} (hi : i < n) (hf : f i = j)
    (hu : ∀ i' < n, f i' = j → i' = i) : ((List.range n).filter fun i => decide (f i = j)).length = 1 := by
  have : ((List.range n).filter fun i => decide (f i = j)).Perm [i] := by
    rw [List.perm_ext_iff_of_nodup (List.nodup_range.filter _) (List.nodup_singleton i)]
    intro k
    simp only [List.mem_filter, List.mem_range, decide_eq_true_eq, List.mem_singleton]
    exact ⟨fun h => hu k h.1 h.2, fun h => h ▸ ⟨hi, hf⟩⟩
  simpa using this.length_eq

/-- **C123.**  The atoms in another order, the crystal shifted as a whole, every atom replaced by one of its
images, other axes of the same lattice. -/
theorem C123_relabel (a a' : Mat) (hlat : Spec.lattice a' = Spec.lattice a) (n : ℕ) (types types' : ℕ → ℕ)
    (pos pos' : ℕ → Vec ℝ) (s : Vec ℝ) (σ τ : ℕ → ℕ) (hσ : ∀ i < n, σ i < n ∧ τ (σ i) = i)
    (hτ : ∀ j < n, τ j < n ∧ σ (τ j) = j) (htypes : ∀ i < n, types' i = types (σ i))
    (hpos : ∀ i < n, ∃ t ∈ Spec.lattice a, pos' i = pos (σ i) + s + t) :
    Spec.CrystalCopies n n types types' pos pos' (Spec.lattice a) (Spec.lattice a') s σ 1 := by
  have hd : ∀ i < n, pos' i - pos (σ i) - s ∈ Spec.lattice a := by
    intro i hi
    obtain ⟨t, ht, h⟩ := hpos i hi
    rw [h, show pos (σ i) + s + t - pos (σ i) - s = t by abel]
    exact ht
  have huniq : ∀ i < n, ∀ j, σ i = j → i = τ j := fun i hi j hij => by rw [← hij, (hσ i hi).2]
  refine ⟨hlat.le, fun i hi => ⟨(hσ i hi).1, htypes i hi, hd i hi⟩, fun j hj x hx => ⟨τ j, ⟨(hτ j hj).1, (hτ j hj).2, ?_⟩,
    fun i hi => huniq i hi.1 j hi.2.1⟩,
    fun j hj => filter_eq_one (hτ j hj).1 (hτ j hj).2 fun i hi hij => huniq i hi j hij⟩
  rw [hlat]
  have h1 := Neighbor.neg_mem_lattice a (hd (τ j) (hτ j hj).1)
  rw [(hτ j hj).2] at h1
  have h2 := Neighbor.add_mem_lattice a hx h1
  rwa [show x - pos j - s + -(pos' (τ j) - pos j - s) = x - pos' (τ j) by abel] at h2

/-! ## Supercells -/

theorem mem_axes (A : M3 ℝ) (x : Vec ℝ) : x ∈ Spec.lattice (Spec.axesOf A) ↔
    ∃ i j k : ℤ, x = Spec.vecOf (Spec.cart A ⟨(i : ℝ), (j : ℝ), (k : ℝ)⟩) := by
  constructor
  · rintro ⟨v, hv⟩
    refine ⟨v 0, v 1, v 2, funext fun r => ?_⟩
    rw [hv r, Fin.sum_univ_three]
    fin_cases r <;> simp [Spec.axesOf, Spec.vecOf, Spec.cart]
  · rintro ⟨i, j, k, rfl⟩
    refine ⟨![i, j, k], fun r => ?_⟩
    rw [Fin.sum_univ_three]
    fin_cases r <;> simp [Spec.axesOf, Spec.vecOf, Spec.cart]

theorem cart_sub (A : M3 ℝ) (u v : V3 ℝ) : Spec.vecOf (Spec.cart A u) - Spec.vecOf (Spec.cart A v) =
    Spec.vecOf (Spec.cart A ⟨u.x - v.x, u.y - v.y, u.z - v.z⟩) := by
  funext r
  fin_cases r <;> simp [Spec.vecOf, Spec.cart] <;> ring

theorem cart_inj (A : M3 ℝ) (h : A.det ≠ 0) {u v : V3 ℝ}
    (he : Spec.vecOf (Spec.cart A u) = Spec.vecOf (Spec.cart A v)) : u = v := by
  have h0 := congrFun he 0
  have h1 := congrFun he 1
  have h2 := congrFun he 2
  simp only [Spec.vecOf, Spec.cart, Matrix.cons_val_zero, Matrix.cons_val_one, Matrix.cons_val] at h0 h1 h2
  obtain ⟨ux, uy, uz⟩ := u
  obtain ⟨vx, vy, vz⟩ := v
  simp only at h0 h1 h2
  unfold M3.det at h
  have ex : ux = vx := mul_left_cancel₀ h (by
    linear_combination (A.r1.y * A.r2.z - A.r1.z * A.r2.y) * h0 - (A.r0.y * A.r2.z - A.r0.z * A.r2.y) * h1
      + (A.r0.y * A.r1.z - A.r0.z * A.r1.y) * h2)
  have ey : uy = vy := mul_left_cancel₀ h (by
    linear_combination -(A.r1.x * A.r2.z - A.r1.z * A.r2.x) * h0 + (A.r0.x * A.r2.z - A.r0.z * A.r2.x) * h1
      - (A.r0.x * A.r1.z - A.r0.z * A.r1.x) * h2)
  have ez : uz = vz := mul_left_cancel₀ h (by
    linear_combination (A.r1.x * A.r2.y - A.r1.y * A.r2.x) * h0 - (A.r0.x * A.r2.y - A.r0.y * A.r2.x) * h1
      + (A.r0.x * A.r1.y - A.r0.y * A.r1.x) * h2)
  rw [ex, ey, ez]

theorem cart_scale (A : M3 ℝ) (nx ny nz : ℕ) (v : V3 ℝ) : Spec.cart (Supercell.scaleAxis A nx ny nz) v =
    Spec.cart A ⟨(nx : ℝ) * v.x, (ny : ℝ) * v.y, (nz : ℝ) * v.z⟩ := by
  simp only [Supercell.scaleAxis, Spec.cart, V3.mk.injEq]
  refine ⟨?_, ?_, ?_⟩ <;> ring

theorem getElem?_flatMap_const {α β : Type} (g : α → List β) (N : ℕ) (hN : 0 < N) (hg : ∀ x, (g x).length = N) :
    ∀ (l : List α) (i : ℕ), (l.flatMap g)[i]? = l[i / N]?.bind fun x => (g x)[i % N]?
  | [], i => by simp
  | x :: l, i => by
    rw [List.flatMap_cons]
    by_cases h : i < N
    · rw [List.getElem?_append_left (by rw [hg]; exact h), Nat.div_eq_of_lt h, Nat.mod_eq_of_lt h]
      simp
    · push Not at h
      rw [List.getElem?_append_right (by rw [hg]; exact h), hg, getElem?_flatMap_const g N hN hg l]
      have h1 : i / N = (i - N) / N + 1 := by rw [Nat.div_eq_sub_div hN h]
      rw [h1, List.getElem?_cons_succ, Nat.mod_eq_sub_mod h]

theorem filter_div (n N j : ℕ) (hj : j < n) (hN : 0 < N) :
    ((List.range (n * N)).filter fun i => decide (i / N = j)).length = N := by
  have : ((List.range (n * N)).filter fun i => decide (i / N = j)).Perm ((List.range N).map fun r => j * N + r) := by
    rw [List.perm_ext_iff_of_nodup (List.nodup_range.filter _) (List.nodup_range.map fun a b h => by simpa using h)]
    intro k
    simp only [List.mem_filter, List.mem_range, decide_eq_true_eq, List.mem_map]
    constructor
    · rintro ⟨-, rfl⟩
      exact ⟨k % N, Nat.mod_lt _ hN, by rw [mul_comm]; exact Nat.div_add_mod k N⟩
    · rintro ⟨r, hr, rfl⟩
      refine ⟨?_, ?_⟩
      · calc j * N + r < j * N + N := by omega
          _ = (j + 1) * N := by ring
          _ ≤ n * N := Nat.mul_le_mul_right _ hj
      · rw [mul_comm, Nat.mul_add_div hN, Nat.div_eq_of_lt hr, add_zero]
  simpa using this.length_eq

/-- **C123.**  A diagonal supercell made by `get_supercell` is a description of the same crystal, with
`nx * ny * nz` atoms for every atom of the cell. -/
theorem C123_supercell (tol : ℝ) (h0 : 0 < tol) (h1 : tol < 1) (st : Structure ℝ) (hwf : st.WF)
    (hdet : st.axis.det ≠ 0) (nx ny nz : ℕ) (hx : 0 < nx) (hy : 0 < ny) (hz : 0 < nz) :
    let sup := Supercell.diagonal tol st nx ny nz
    Spec.CrystalCopies st.types.length sup.types.length (fun i => st.types.getD i 0) (fun i => sup.types.getD i 0)
      (Spec.atomPos st) (Spec.atomPos sup) (Spec.lattice (Spec.axesOf st.axis)) (Spec.lattice (Spec.axesOf sup.axis))
      0 (fun i => i / (nx * ny * nz)) (nx * ny * nz) := by
  intro sup
  set N := nx * ny * nz with hNdef
  have hN : 0 < N := Nat.mul_pos (Nat.mul_pos hx hy) hz
  have hpl : st.positions.length = st.types.length := hwf.1.trans hwf.2.1
  have hlen : sup.types.length = st.types.length * N := by
    simp [sup, Supercell.diagonal, Supercell.repeatEach, List.length_flatMap, hNdef]
  have hA : sup.axis = Supercell.scaleAxis st.axis nx ny nz := rfl
  have htyp : ∀ i, sup.types.getD i 0 = st.types.getD (i / N) 0 := by
    intro i
    simp only [List.getD_eq_getElem?_getD]
    rw [show sup.types = st.types.flatMap fun x => List.replicate N x from rfl,
      getElem?_flatMap_const _ N hN (by simp)]
    cases st.types[i / N]? with
    | none => rfl
    | some x => simp [Nat.mod_lt i hN]
  -- the atoms
  have hpos : ∀ i < sup.types.length, ∃ t, (Supercell.translations nx ny nz)[i % N]? = some t ∧
      ∃ k1 k2 k3 : ℤ, Spec.atomPos sup i - Spec.atomPos st (i / N) =
        Spec.vecOf (Spec.cart st.axis ⟨(t.1 : ℝ) + nx * k1, (t.2.1 : ℝ) + ny * k2, (t.2.2 : ℝ) + nz * k3⟩) := by
    intro i hi
    rw [hlen] at hi
    have hil : i % N < (Supercell.translations nx ny nz).length := by
      rw [Supercell.length_translations]; exact Nat.mod_lt i hN
    refine ⟨_, List.getElem?_eq_getElem hil, ?_⟩
    have hdl : i / N < st.positions.length := by
      rw [hpl]; exact Nat.div_lt_of_lt_mul (by rwa [mul_comm] at hi)
    set t := (Supercell.translations nx ny nz)[i % N] with htdef
    set q := st.positions[i / N] with hq
    have e1 : sup.positions.getD i ⟨0, 0, 0⟩ = Supercell.refine tol (Supercell.place nx ny nz q t) := by
      rw [List.getD_eq_getElem?_getD]
      rw [show sup.positions = (st.positions.flatMap fun p => (Supercell.translations nx ny nz).map fun t =>
        Supercell.place nx ny nz p t).map (Supercell.refine tol) from rfl, List.getElem?_map,
        getElem?_flatMap_const _ N hN (fun x => by rw [List.length_map, Supercell.length_translations]),
        List.getElem?_eq_getElem hdl]
      simp only [Option.bind_some, List.getElem?_map, List.getElem?_eq_getElem hil, Option.map_some, Option.getD_some]
      rfl
    have e2 : st.positions.getD (i / N) ⟨0, 0, 0⟩ = q := by
      rw [List.getD_eq_getElem?_getD, List.getElem?_eq_getElem hdl, Option.getD_some]
    obtain ⟨⟨k1, d1⟩, -⟩ := Supercell.refine1_spec tol ((q.x + (t.1 : ℝ)) / nx) h0 h1
    obtain ⟨⟨k2, d2⟩, -⟩ := Supercell.refine1_spec tol ((q.y + (t.2.1 : ℝ)) / ny) h0 h1
    obtain ⟨⟨k3, d3⟩, -⟩ := Supercell.refine1_spec tol ((q.z + (t.2.2 : ℝ)) / nz) h0 h1
    refine ⟨k1, k2, k3, ?_⟩
    have hx' : (nx : ℝ) ≠ 0 := by exact_mod_cast hx.ne'
    have hy' : (ny : ℝ) ≠ 0 := by exact_mod_cast hy.ne'
    have hz' : (nz : ℝ) ≠ 0 := by exact_mod_cast hz.ne'
    unfold Spec.atomPos
    rw [e1, e2, hA, cart_scale, cart_sub]
    congr 2
    simp only [Supercell.refine, Supercell.place, d1, d2, d3, V3.mk.injEq]
    refine ⟨?_, ?_, ?_⟩ <;> field_simp <;> ring
  have hdiv : ∀ i < sup.types.length, i / N < st.types.length := by
    intro i hi
    rw [hlen, mul_comm] at hi
    exact Nat.div_lt_of_lt_mul hi
  refine ⟨?_, fun i hi => ⟨hdiv i hi, htyp i, ?_⟩, ?_, fun j hj => by rw [hlen]; exact filter_div _ N j hj hN⟩
  · intro x hx
    rw [mem_axes] at hx ⊢
    obtain ⟨i, j, k, rfl⟩ := hx
    exact ⟨nx * i, ny * j, nz * k, by rw [hA, cart_scale]; push_cast; rfl⟩
  · obtain ⟨t, -, k1, k2, k3, h⟩ := hpos i hi
    rw [sub_zero, h, mem_axes]
    exact ⟨t.1 + nx * k1, t.2.1 + ny * k2, t.2.2 + nz * k3, by push_cast; rfl⟩
  · intro j hj x hxj
    rw [sub_zero, mem_axes] at hxj
    obtain ⟨u, v, w, hxj⟩ := hxj
    -- the translation of the cell that holds the image
    have key : ∀ i < sup.types.length, i / N = j → ∀ t, (Supercell.translations nx ny nz)[i % N]? = some t →
        (x - Spec.atomPos sup i ∈ Spec.lattice (Spec.axesOf sup.axis) ↔
          (t.1 : ℤ) = u % nx ∧ (t.2.1 : ℤ) = v % ny ∧ (t.2.2 : ℤ) = w % nz) := by
      intro i hi hij t ht
      obtain ⟨t', ht', k1, k2, k3, h⟩ := hpos i hi
      rw [ht] at ht'
      obtain rfl := Option.some.inj ht'
      obtain ⟨b1, b2, b3⟩ := (Supercell.mem_translations nx ny nz t).1 (List.mem_of_getElem? ht)
      have hd : x - Spec.atomPos sup i = Spec.vecOf (Spec.cart st.axis ⟨((u - t.1 - nx * k1 : ℤ) : ℝ),
          ((v - t.2.1 - ny * k2 : ℤ) : ℝ), ((w - t.2.2 - nz * k3 : ℤ) : ℝ)⟩) := by
        rw [hij] at h
        rw [show x - Spec.atomPos sup i = (x - Spec.atomPos st j) - (Spec.atomPos sup i - Spec.atomPos st j) by abel,
          hxj, h, cart_sub]
        congr 2
        simp only [V3.mk.injEq]
        push_cast
        refine ⟨?_, ?_, ?_⟩ <;> ring
      rw [hd, mem_axes]
      have hmod : ∀ (s t : ℕ) (u k : ℤ), t < s → ((∃ i : ℤ, u - t - s * k = s * i) ↔ (t : ℤ) = u % s) := by
        intro s t u k hts
        constructor
        · rintro ⟨i, hi⟩
          have : u = t + s * (k + i) := by linarith
          rw [this, Int.add_mul_emod_self_left, Int.emod_eq_of_lt (by positivity) (by exact_mod_cast hts)]
        · intro h
          refine ⟨u / s - k, ?_⟩
          have := Int.emod_add_mul_ediv u s
          rw [h]
          linarith
      rw [← hmod nx t.1 u k1 b1, ← hmod ny t.2.1 v k2 b2, ← hmod nz t.2.2 w k3 b3]
      constructor
      · rintro ⟨i', j', k', he⟩
        rw [hA, cart_scale] at he
        have := cart_inj st.axis hdet he
        simp only [V3.mk.injEq] at this
        exact ⟨⟨i', by exact_mod_cast this.1⟩, ⟨j', by exact_mod_cast this.2.1⟩, ⟨k', by exact_mod_cast this.2.2⟩⟩
      · rintro ⟨⟨i', e1⟩, ⟨j', e2⟩, ⟨k', e3⟩⟩
        refine ⟨i', j', k', ?_⟩
        rw [hA, cart_scale, e1, e2, e3]
        push_cast
        rfl
    have hnn : ∀ (s : ℕ) (u : ℤ), 0 < s → ((u % s).toNat : ℤ) = u % s ∧ (u % s).toNat < s := by
      intro s u hs
      have h1 := Int.emod_nonneg u (by exact_mod_cast hs.ne' : (s : ℤ) ≠ 0)
      have h2 := Int.emod_lt_of_pos u (by exact_mod_cast hs : (0 : ℤ) < s)
      omega
    obtain ⟨r, hr⟩ := List.getElem?_of_mem ((Supercell.mem_translations nx ny nz
      ((u % nx).toNat, (v % ny).toNat, (w % nz).toNat)).2 ⟨(hnn nx u hx).2, (hnn ny v hy).2, (hnn nz w hz).2⟩)
    have hrN : r < N := by
      have := (List.getElem?_eq_some_iff.1 hr).1
      rwa [Supercell.length_translations] at this
    have hi1 : (j * N + r) / N = j := by rw [mul_comm, Nat.mul_add_div hN, Nat.div_eq_of_lt hrN, add_zero]
    have hi2 : (j * N + r) % N = r := by rw [mul_comm, Nat.mul_add_mod, Nat.mod_eq_of_lt hrN]
    have hi3 : j * N + r < sup.types.length := by
      rw [hlen]
      calc j * N + r < j * N + N := by omega
        _ = (j + 1) * N := by ring
        _ ≤ _ := Nat.mul_le_mul_right _ hj
    refine ⟨j * N + r, ⟨hi3, hi1, ?_⟩, ?_⟩
    · rw [key _ hi3 hi1 _ (by rw [hi2]; exact hr)]
      exact ⟨(hnn nx u hx).1, (hnn ny v hy).1, (hnn nz w hz).1⟩
    · rintro i ⟨hi, hij, hm⟩
      obtain ⟨t, ht, -⟩ := hpos i hi
      rw [key i hi hij t ht] at hm
      have htt : t = ((u % nx).toNat, (v % ny).toNat, (w % nz).toNat) := by
        obtain ⟨t1, t2, t3⟩ := t
        simp only [Prod.mk.injEq] at hm ⊢
        have := (hnn nx u hx).1; have := (hnn ny v hy).1; have := (hnn nz w hz).1
        omega
      have hil : i % N < (Supercell.translations nx ny nz).length := (List.getElem?_eq_some_iff.1 ht).1
      have : i % N = r := (List.nodup_iff_getElem?_ne_getElem?.mp (Supercell.nodup_translations nx ny nz) |> fun hnd => by
        by_contra hne
        rcases Nat.lt_or_gt_of_ne hne with hlt | hlt
        · exact hnd _ _ hlt (List.getElem?_eq_some_iff.1 hr).1 (by rw [ht, hr, htt])
        · exact hnd _ _ hlt hil (by rw [ht, hr, htt]))
      have := Nat.div_add_mod i N
      subst hij
      rw [mul_comm]
      omega

/-- **C123.**  In an orthogonal cell with all coordinates between 0 and 1, away from 1 by what the refinement
of the positions needs, the search finds all neighbours in the cell and in its diagonal supercells, so that
the theorems on columns and properties apply. -/
theorem C123_supercell_search (stol : ℝ) (h0 : 0 < stol) (h1 : stol < 1) (st : Structure ℝ) (hwf : st.WF)
    (hdet : st.axis.det ≠ 0) (h01 : dotc (Spec.axesOf st.axis) 0 1 = 0) (h02 : dotc (Spec.axesOf st.axis) 0 2 = 0)
    (h12 : dotc (Spec.axesOf st.axis) 1 2 = 0) (nx ny nz : ℕ) (hx : 0 < nx) (hy : 0 < ny) (hz : 0 < nz)
    (hin : ∀ v ∈ st.positions, (0 ≤ v.x ∧ v.x < 1 ∧ v.x ≤ 1 - nx * stol) ∧ (0 ≤ v.y ∧ v.y < 1 ∧ v.y ≤ 1 - ny * stol) ∧
      (0 ≤ v.z ∧ v.z < 1 ∧ v.z ≤ 1 - nz * stol)) (cutoff tol : ℝ) (hc : 0 < cutoff) :
    let sup := Supercell.diagonal stol st nx ny nz
    let full := fun (st : Structure ℝ) => fullList (Spec.axesOf st.axis) cutoff tol (Spec.atomPos st) st.types.length
    Spec.AllNeighbors st.types.length (Spec.atomPos st) (Spec.lattice (Spec.axesOf st.axis)) cutoff tol (full st).row ∧
    Spec.AllNeighbors sup.types.length (Spec.atomPos sup) (Spec.lattice (Spec.axesOf sup.axis)) cutoff tol
      (full sup).row := by
  intro sup full
  have hdet' : ∀ (A : M3 ℝ) (M : Mat), M = Spec.axesOf A → M.det = A.det := by
    intro A M hM
    rw [Matrix.det_fin_three M, hM]
    simp [Spec.axesOf, Spec.vecOf, M3.det]
    ring
  have hmul : ∀ (A : M3 ℝ) (v : V3 ℝ), Spec.vecOf (Spec.cart A v) = (Spec.axesOf A : Mat) *ᵥ Spec.vecOf v := by
    intro A v
    funext r
    fin_cases r <;> simp [Spec.axesOf, Spec.vecOf, Spec.cart, Matrix.mulVec, dotProduct, Fin.sum_univ_three]
  have gen : ∀ s : Structure ℝ, s.axis.det ≠ 0 → dotc (Spec.axesOf s.axis) 0 1 = 0 → dotc (Spec.axesOf s.axis) 0 2 = 0 →
      dotc (Spec.axesOf s.axis) 1 2 = 0 → s.positions.length = s.types.length →
      (∀ v ∈ s.positions, (0 ≤ v.x ∧ v.x < 1) ∧ (0 ≤ v.y ∧ v.y < 1) ∧ (0 ≤ v.z ∧ v.z < 1)) →
      Spec.AllNeighbors s.types.length (Spec.atomPos s) (Spec.lattice (Spec.axesOf s.axis)) cutoff tol (full s).row := by
    intro s d1 d2 d3 d4 hl hv
    refine C123_search_orthogonal _ (by rw [hdet' s.axis _ rfl]; exact d1) d2 d3 d4 cutoff tol hc _ _ fun j hj => ?_
    rw [← hl] at hj
    refine ⟨Spec.vecOf s.positions[j], fun k => ?_, ?_⟩
    · have := hv s.positions[j] (List.getElem_mem hj)
      fin_cases k
      · exact this.1
      · exact this.2.1
      · exact this.2.2
    · unfold Spec.atomPos
      rw [List.getD_eq_getElem?_getD, List.getElem?_eq_getElem hj, Option.getD_some, hmul]
  have hpl : st.positions.length = st.types.length := hwf.1.trans hwf.2.1
  refine ⟨gen st hdet h01 h02 h12 hpl fun v hv => ?_, ?_⟩
  · obtain ⟨⟨a1, a2, -⟩, ⟨b1, b2, -⟩, c1, c2, -⟩ := hin v hv
    exact ⟨⟨a1, a2⟩, ⟨b1, b2⟩, c1, c2⟩
  have hx' : (0 : ℝ) < nx := by exact_mod_cast hx
  have hy' : (0 : ℝ) < ny := by exact_mod_cast hy
  have hz' : (0 : ℝ) < nz := by exact_mod_cast hz
  have hwf' := (Supercell.C41_counts stol st hwf nx ny nz).1
  have hdot : ∀ (A : M3 ℝ) (i j : Fin 3), dotc (Spec.axesOf (Supercell.scaleAxis A nx ny nz)) i j =
      (![(nx : ℝ), ny, nz] i) * (![(nx : ℝ), ny, nz] j) * dotc (Spec.axesOf A) i j := by
    intro A i j
    fin_cases i <;> fin_cases j <;> simp [dotc, Spec.axesOf, Spec.vecOf, Supercell.scaleAxis] <;> ring
  refine gen sup ?_ ?_ ?_ ?_ (hwf'.1.trans hwf'.2.1) fun v hv => ?_
  · have : sup.axis.det = nx * ny * nz * st.axis.det := by
      simp only [sup, Supercell.diagonal, Supercell.scaleAxis, M3.det]; ring
    rw [this]
    exact mul_ne_zero (by positivity) hdet
  · exact (hdot st.axis 0 1).trans (by rw [h01, mul_zero])
  · exact (hdot st.axis 0 2).trans (by rw [h02, mul_zero])
  · exact (hdot st.axis 1 2).trans (by rw [h12, mul_zero])
  · simp only [sup, Supercell.diagonal, List.mem_map, List.mem_flatMap] at hv
    obtain ⟨w, ⟨q, hq, t, ht, rfl⟩, rfl⟩ := hv
    obtain ⟨t1, t2, t3⟩ := (Supercell.mem_translations nx ny nz t).1 ht
    obtain ⟨a, b, c⟩ := hin q hq
    have one : ∀ (s t : ℕ) (x : ℝ), (0 : ℝ) < s → t < s → 0 ≤ x ∧ x < 1 ∧ x ≤ 1 - s * stol →
        0 ≤ Supercell.refine1 stol ((x + t) / s) ∧ Supercell.refine1 stol ((x + t) / s) < 1 := by
      intro s t x hs hts hx
      have hts' : (t : ℝ) + 1 ≤ s := by exact_mod_cast hts
      have g0 : 0 ≤ (x + t) / s := div_nonneg (by have := hx.1; positivity) hs.le
      have g1 : (x + t) / s < 1 := by rw [div_lt_one hs]; linarith [hx.2.1]
      have g2 : (x + t) / s ≤ 1 - stol := by
        rw [div_le_iff₀ hs]
        nlinarith [hx.2.2]
      have hfl : ⌊(x + t) / (s : ℝ)⌋ = 0 := by rw [Int.floor_eq_zero_iff]; exact ⟨g0, g1⟩
      unfold Supercell.refine1
      simp only [hfl, Int.cast_zero, sub_zero]
      rw [if_neg (by linarith)]
      exact ⟨g0, g1⟩
    exact ⟨one nx t.1 q.x hx' t1 a, one ny t.2.1 q.y hy' t2 b, one nz t.2.2 q.z hz' t3 c⟩

/-- **C123.**  A potential with pair features gives a diagonal supercell of an orthogonal cell the energy of the
cell times the number of cells, the same forces and the stress times the number of cells, whatever the size of
the cell compared to the cutoff. -/
theorem C123_supercell_pair (p : PairParams ℝ) (sqrt : ℝ → ℝ) (c : ℕ → ℝ) (stol : ℝ) (h0 : 0 < stol) (h1 : stol < 1)
    (st : Structure ℝ) (hwf : st.WF) (htypes : ∀ t ∈ st.types, t < p.nType)
    (hdet : st.axis.det ≠ 0) (h01 : dotc (Spec.axesOf st.axis) 0 1 = 0) (h02 : dotc (Spec.axesOf st.axis) 0 2 = 0)
    (h12 : dotc (Spec.axesOf st.axis) 1 2 = 0) (nx ny nz : ℕ) (hx : 0 < nx) (hy : 0 < ny) (hz : 0 < nz)
    (hin : ∀ v ∈ st.positions, (0 ≤ v.x ∧ v.x < 1 ∧ v.x ≤ 1 - nx * stol) ∧ (0 ≤ v.y ∧ v.y < 1 ∧ v.y ≤ 1 - ny * stol) ∧
      (0 ≤ v.z ∧ v.z < 1 ∧ v.z ≤ 1 - nz * stol)) (cutoff tol : ℝ) (hc : 0 < cutoff) (ht : 0 < tol)
    (hL : Spec.LongTranslations (Spec.lattice (Spec.axesOf st.axis)) tol) :
    let sup := Supercell.diagonal stol st nx ny nz
    let R := fun (st : Structure ℝ) => evalPair p sqrt (p.pot c) (fun i => st.types.getD i 0) st.types.length
      (halfList (Spec.axesOf st.axis) cutoff tol (Spec.atomPos st) st.types.length)
    Spec.SameProps sup.types.length (fun i => i / (nx * ny * nz)) (nx * ny * nz) (R st).energy (R sup).energy
      (R st).forces (R sup).forces (R st).stress (R sup).stress := by
  intro sup R
  obtain ⟨g1, g2⟩ := C123_supercell_search stol h0 h1 st hwf hdet h01 h02 h12 nx ny nz hx hy hz hin cutoff tol hc
  refine C123_pair_properties p sqrt c ht (fun i hi => ?_) hL
    (C123_supercell stol h0 h1 st hwf hdet nx ny nz hx hy hz) g1 g2
  rw [List.getD_eq_getElem?_getD, List.getElem?_eq_getElem hi, Option.getD_some]
  exact htypes _ (List.getElem_mem hi)

/-- **C123.**  The same for a potential with rotation invariants. -/
theorem C123_supercell_invariant (p : GtParams ℝ) (hp : UsesProgramYlm p) (hcond : ∀ i j, (p.cond i j).Nodup)
    (htab : Spec.RotTable ladderF p.maxl p.lComb p.lmArray p.lmCoeffs) (c : ℕ → ℝ) (stol : ℝ) (h0 : 0 < stol)
    (h1 : stol < 1) (st : Structure ℝ) (hwf : st.WF) (htypes : ∀ t ∈ st.types, t < p.nType)
    (hdet : st.axis.det ≠ 0) (h01 : dotc (Spec.axesOf st.axis) 0 1 = 0) (h02 : dotc (Spec.axesOf st.axis) 0 2 = 0)
    (h12 : dotc (Spec.axesOf st.axis) 1 2 = 0) (nx ny nz : ℕ) (hx : 0 < nx) (hy : 0 < ny) (hz : 0 < nz)
    (hin : ∀ v ∈ st.positions, (0 ≤ v.x ∧ v.x < 1 ∧ v.x ≤ 1 - nx * stol) ∧ (0 ≤ v.y ∧ v.y < 1 ∧ v.y ≤ 1 - ny * stol) ∧
      (0 ≤ v.z ∧ v.z < 1 ∧ v.z ≤ 1 - nz * stol)) (cutoff tol : ℝ) (hc : 0 < cutoff) (ht : 0 < tol)
    (hL : Spec.LongTranslations (Spec.lattice (Spec.axesOf st.axis)) tol)
    (hno : ∀ i < st.types.length, NoSkip p (st.types.getD i 0) (anlmD p Real.sqrt (fun i => st.types.getD i 0) i
      ((fullList (Spec.axesOf st.axis) cutoff tol (Spec.atomPos st) st.types.length).row i)).a) :
    let sup := Supercell.diagonal stol st nx ny nz
    let R := fun (st : Structure ℝ) => evalGtinv p Real.sqrt (p.pot c) (fun i => st.types.getD i 0) st.types.length
      (halfList (Spec.axesOf st.axis) cutoff tol (Spec.atomPos st) st.types.length)
    Spec.SameProps sup.types.length (fun i => i / (nx * ny * nz)) (nx * ny * nz) (R st).energy (R sup).energy
      (R st).forces (R sup).forces (R st).stress (R sup).stress := by
  intro sup R
  obtain ⟨g1, g2⟩ := C123_supercell_search stol h0 h1 st hwf hdet h01 h02 h12 nx ny nz hx hy hz hin cutoff tol hc
  refine C123_invariant_properties p hp hcond htab c ht (fun i hi => ?_) hL
    (C123_supercell stol h0 h1 st hwf hdet nx ny nz hx hy hz) g1 g2 hno
  rw [List.getD_eq_getElem?_getD, List.getElem?_eq_getElem hi, Option.getD_some]
  exact htypes _ (List.getElem_mem hi)

/-- A cubic cell with two atoms of different types. -/
noncomputable def exCell : Structure ℝ :=
  { axis := ⟨⟨3, 0, 0⟩, ⟨0, 3, 0⟩, ⟨0, 0, 3⟩⟩, positions := [⟨0, 0, 0⟩, ⟨1/2, 1/2, 1/2⟩], nAtoms := [1, 1],
    elements := ["Na", "Cl"], types := [0, 1], volume := 27 }

/-- The hypotheses of the theorems on supercells are met: two cells along x, a cutoff larger than the cell. -/
example : exCell.WF ∧ exCell.axis.det ≠ 0 ∧ dotc (Spec.axesOf exCell.axis) 0 1 = 0 ∧
    dotc (Spec.axesOf exCell.axis) 0 2 = 0 ∧ dotc (Spec.axesOf exCell.axis) 1 2 = 0 ∧
    (∀ v ∈ exCell.positions, (0 ≤ v.x ∧ v.x < 1 ∧ v.x ≤ 1 - (2 : ℕ) * (1/100)) ∧
      (0 ≤ v.y ∧ v.y < 1 ∧ v.y ≤ 1 - (1 : ℕ) * (1/100)) ∧ (0 ≤ v.z ∧ v.z < 1 ∧ v.z ≤ 1 - (1 : ℕ) * (1/100 : ℝ))) ∧
    Spec.LongTranslations (Spec.lattice (Spec.axesOf exCell.axis)) (1/100) := by
  refine ⟨by simp [exCell, Structure.WF], by simp [exCell, M3.det], ?_, ?_, ?_, ?_, ?_⟩
  · simp [dotc, exCell, Spec.axesOf, Spec.vecOf]
  · simp [dotc, exCell, Spec.axesOf, Spec.vecOf]
  · simp [dotc, exCell, Spec.axesOf, Spec.vecOf]
  · simp [exCell]
    norm_num
  · intro t ht
    rw [mem_axes] at ht
    obtain ⟨i, j, k, rfl⟩ := ht
    by_cases h : i = 0 ∧ j = 0 ∧ k = 0
    · left
      obtain ⟨rfl, rfl, rfl⟩ := h
      funext r
      fin_cases r <;> simp [Spec.vecOf, Spec.cart]
    · right
      have h2 : (1 : ℤ) ≤ i * i + j * j + k * k := by
        by_contra hc
        apply h
        refine ⟨?_, ?_, ?_⟩ <;> nlinarith [mul_self_nonneg i, mul_self_nonneg j, mul_self_nonneg k]
      have h3 : (1 : ℝ) ≤ i * i + j * j + k * k := by exact_mod_cast h2
      simp [Spec.len2, Spec.vecOf, Spec.cart, exCell]
      nlinarith

/-! ## The image of an atom that is given -/

/-- One pair feature with the value 1. -/
def unitPair : PairParams ℝ := ⟨1, fun _ _ => [0], fun _ _ => 1, fun _ _ => 0, 1, 1, 1⟩

theorem unit_xe (sqrt : ℝ → ℝ) (n : ℕ) (N : Csr (ℕ × Vec ℝ)) :
    (modelRun unitPair sqrt (fun _ => 0) n N).xe 0 = ((List.range n).map fun i => ((N.row i).map fun e =>
      if 1 ≤ sqrt (r2 e.2) then (0 : ℝ) else 1).sum).sum := by
  have hpoly : unitPair.poly 0 = [(0, [0])] := rfl
  have hattr : unitPair.attrs 0 = [⟨0, 0, 0, 0, 0, 0⟩] := rfl
  have htp : unitPair.maps.typePairs 0 0 = 0 := rfl
  rw [(modelRun_terms unitPair sqrt _ n N 0).1]
  refine sum_map_congr _ _ _ fun i _ => ?_
  simp only [hpoly, List.map_cons, List.map_nil, List.sum_cons, List.sum_nil, if_true, List.prod_cons, List.prod_nil,
    mul_one, add_zero]
  rw [resp_one]
  refine sum_map_congr _ _ _ fun e _ => ?_
  unfold respOne
  simp only [hattr, htp, List.map_cons, List.map_nil, List.sum_cons, List.sum_nil, if_true, add_zero]
  rfl

/-- Two atoms at a distance of 1/4 in the unit cube. -/
noncomputable def nearPos : ℕ → Vec ℝ := fun j => if j = 0 then 0 else ![1/4, 0, 0]

/-- The same crystal, the second atom given by an image ten cells away. -/
noncomputable def farPos : ℕ → Vec ℝ := fun j => if j = 0 then 0 else ![41/4, 0, 0]

theorem cube_copies : Spec.CrystalCopies 2 2 (fun _ => 0) (fun _ => 0) nearPos farPos (Spec.lattice (1 : Mat))
    (Spec.lattice (1 : Mat)) 0 id 1 := by
  refine C123_relabel 1 1 rfl 2 _ _ nearPos farPos 0 id id (fun i hi => ⟨hi, rfl⟩) (fun i hi => ⟨hi, rfl⟩)
    (fun _ _ => rfl) fun i hi => ?_
  by_cases h : i = 0
  · refine ⟨0, ⟨0, fun r => by simp⟩, ?_⟩
    simp [h, nearPos, farPos]
  · refine ⟨![10, 0, 0], (Neighbor.mem_lattice _ _).2 ⟨![10, 0, 0], ?_⟩, ?_⟩
    · rw [one_mulVec]
      funext r
      fin_cases r <;> simp [Neighbor.castV]
    · simp only [id, nearPos, farPos, h, if_false, add_zero]
      funext r
      fin_cases r <;> simp
      norm_num

theorem cube_lattice {t : Vec ℝ} (h : t ∈ Spec.lattice (1 : Mat)) : ∃ v : Fin 3 → ℤ, ∀ r, t r = v r := by
  obtain ⟨v, hv⟩ := (Neighbor.mem_lattice _ _).1 h
  exact ⟨v, fun r => by rw [hv, one_mulVec]; rfl⟩

theorem not_refAny : ¬ refAny (1 : Mat) := by
  rintro ((hh | hh) | (hh | hh) | (hh | hh)) <;> simp [dotc] at hh <;> norm_num at hh

theorem cube_trans {t : Vec ℝ} (h : t ∈ cellTrans (1 : Mat) (1/2)) : |t 0| ≤ 2 := by
  simp only [cellTrans, Neighbor.findTrans, List.mem_filterMap] at h
  obtain ⟨v, hv, hq⟩ := h
  rw [cellAxis, if_neg not_refAny] at hv hq
  have hmx : Neighbor.maxExp (1 : Mat) (1/2) 0 = 2 := by
    have hn : norm3 (toCartesian (1 : Mat) (Pi.single 0 1)) = 1 := by
      simp [norm3, r2, toCartesian]
    rw [Neighbor.maxExp, hn]
    have : ⌈(1/2 : ℝ) / 1⌉ = 1 := by
      rw [Int.ceil_eq_iff]; norm_num
    rw [this]; norm_num
  rw [Neighbor.mem_grid, hmx] at hv
  split at hq
  · simp only [Option.some.injEq] at hq
    have e0 := congrFun hq 0
    simp [toCartesian, Neighbor.castV] at e0
    rw [← e0, abs_le]
    exact ⟨by exact_mod_cast hv.1.1, by exact_mod_cast hv.1.2⟩
  · cases hq

theorem int_r2 (v : Fin 3 → ℤ) (t : Vec ℝ) (h : ∀ r, t r = v r) (hlt : r2 t < 1) : r2 t = 0 := by
  have e : r2 t = ((v 0 * v 0 + v 1 * v 1 + v 2 * v 2 : ℤ) : ℝ) := by
    unfold r2; rw [h 0, h 1, h 2]; push_cast; ring
  rw [e] at hlt ⊢
  have h1 : v 0 * v 0 + v 1 * v 1 + v 2 * v 2 < 1 := by exact_mod_cast hlt
  have h2 : 0 ≤ v 0 * v 0 + v 1 * v 1 + v 2 * v 2 := by
    nlinarith [mul_self_nonneg (v 0), mul_self_nonneg (v 1), mul_self_nonneg (v 2)]
  have : v 0 * v 0 + v 1 * v 1 + v 2 * v 2 = 0 := by omega
  rw [this]; norm_num

/-- **C123 is false without a condition on the positions.**  The same two atoms in the unit cube, one of them
given by a distant image: in the first description they are neighbours, in the second one the search finds
nothing, and the energy is lost. -/
theorem C123_image_violation :
    Spec.CrystalCopies 2 2 (fun _ => 0) (fun _ => 0) nearPos farPos (Spec.lattice (1 : Mat))
      (Spec.lattice (1 : Mat)) 0 id 1 ∧
    0 < (modelRun unitPair Real.sqrt (fun _ => 0) 2 (fullList 1 (1/2) (1/10) nearPos 2)).xe 0 ∧
    (modelRun unitPair Real.sqrt (fun _ => 0) 2 (fullList 1 (1/2) (1/10) farPos 2)).xe 0 = 0 := by
  refine ⟨cube_copies, ?_, ?_⟩
  · have hN : Spec.AllNeighbors 2 nearPos (Spec.lattice (1 : Mat)) (1/2) (1/10) (fullList 1 (1/2) (1/10) nearPos 2).row := by
      refine C123_search_orthogonal 1 (by simp) (by simp [dotc]) (by simp [dotc]) (by simp [dotc]) _ _ (by norm_num) _ _
        fun j _ => ⟨nearPos j, fun k => ?_, by simp⟩
      unfold nearPos
      split_ifs
      · simp
      · fin_cases k <;> simp <;> norm_num
    have hm : (1, (![1/4, 0, 0] : Vec ℝ)) ∈ (fullList 1 (1/2) (1/10) nearPos 2).row 0 := by
      rw [((hN 0 (by norm_num)).2 1 _)]
      refine ⟨by norm_num, ⟨0, ⟨0, fun r => by simp⟩, by simp [nearPos]⟩, ?_, ?_⟩ <;> simp [Spec.len2] <;> norm_num
    rw [unit_xe]
    have hnn : ∀ l : List (ℕ × Vec ℝ), 0 ≤ (l.map fun e => if 1 ≤ Real.sqrt (r2 e.2) then (0 : ℝ) else 1).sum := by
      intro l
      refine List.sum_nonneg fun x hx => ?_
      obtain ⟨e, -, rfl⟩ := List.mem_map.1 hx
      split_ifs <;> norm_num
    have h1 : ∀ l : List (ℕ × Vec ℝ), (1, (![1/4, 0, 0] : Vec ℝ)) ∈ l →
        1 ≤ (l.map fun e => if 1 ≤ Real.sqrt (r2 e.2) then (0 : ℝ) else 1).sum := by
      intro l hl
      induction l with
      | nil => cases hl
      | cons b l ih =>
        rw [List.map_cons, List.sum_cons]
        rcases List.mem_cons.1 hl with rfl | hl
        · have : ¬ (1 ≤ Real.sqrt (r2 (![1/4, 0, 0] : Vec ℝ))) := by
            rw [not_le, Real.sqrt_lt' (by norm_num)]
            simp [r2]; norm_num
          rw [if_neg this]
          linarith [hnn l]
        · have : (0 : ℝ) ≤ if 1 ≤ Real.sqrt (r2 b.2) then (0 : ℝ) else 1 := by split_ifs <;> norm_num
          linarith [ih hl]
    rw [show List.range 2 = [0, 1] from rfl]
    simp only [List.map_cons, List.map_nil, List.sum_cons, List.sum_nil]
    linarith [h1 _ hm, hnn ((fullList 1 (1/2) (1/10) nearPos 2).row 1)]
  · have hempty : ∀ i < 2, (fullList 1 (1/2) (1/10) farPos 2).row i = [] := by
      intro i hi
      rw [List.eq_nil_iff_forall_not_mem]
      rintro ⟨j, d⟩ hd
      unfold fullList at hd
      rw [Neighbor.C22_full_content _ _ _ _ _ _ hi] at hd
      obtain ⟨hj, t, ht, he, hc, hg⟩ := hd
      have h2 := abs_le.1 (cube_trans ht)
      have hcell : ∀ v : Vec ℝ, cellPos 1 v = v := fun v => by simp [cellPos, if_neg not_refAny]
      simp only [hcell] at he
      by_cases hij : i = j
      · subst hij
        rw [sub_self, zero_add] at he
        obtain ⟨v, hv⟩ := cube_lattice (Neighbor.C23_translations 1 _ t ht)
        rw [he] at hc hg
        rw [int_r2 v t hv (by linarith)] at hg
        norm_num at hg
      · have : (8 : ℝ) ≤ |d 0| := by
          rw [he]
          rcases (by omega : i = 0 ∧ j = 1 ∨ i = 1 ∧ j = 0) with ⟨rfl, rfl⟩ | ⟨rfl, rfl⟩
          · simp only [farPos, if_true, Pi.add_apply, Pi.sub_apply, Pi.zero_apply]
            simp
            exact (by linarith : (8 : ℝ) ≤ 41/4 + t 0).trans (le_abs_self _)
          · simp only [farPos, if_true, Pi.add_apply, Pi.sub_apply, Pi.zero_apply]
            simp
            exact (by linarith : (8 : ℝ) ≤ -(-(41/4) + t 0)).trans (neg_le_abs _)
        have : (8 : ℝ) * 8 ≤ d 0 * d 0 := by nlinarith [abs_mul_abs_self (d 0), abs_nonneg (d 0)]
        unfold r2 at hc
        nlinarith [mul_self_nonneg (d 1), mul_self_nonneg (d 2)]
    rw [unit_xe, show List.range 2 = [0, 1] from rfl]
    simp only [List.map_cons, List.map_nil, hempty 0 (by norm_num), hempty 1 (by norm_num), List.sum_nil,
      List.sum_cons, add_zero]

end Verif.SameCrystal
