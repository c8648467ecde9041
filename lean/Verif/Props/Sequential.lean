import Verif.Lemmas.Sequential

/-! # C07, C08: batched accumulation of the normal equations -/

namespace Verif.Sequential
variable {p : ℕ} {K : Type}

/-- **C08.** Accumulating only the upper block triangle over any sequence of batches and mirroring
afterwards gives `X^T X` of all rows, for every number of features and every block parameter. -/
theorem C08_blockwise_product [CommRing K] (nBatch : ℕ) (hb : nBatch ≠ 0)
    (X : List (Vec p K × K)) (Xs : List (List (Vec p K × K))) :
    ∃ m m', (X :: Xs).foldlM (fun acc Y => (sumLargeXtx acc Y nBatch).map some) none
        = .ok (some m) ∧
      symmetrizeXtx m nBatch = .ok m' ∧
      ∀ a b, m' a b = ((X :: Xs).flatten.map fun r => r.1 a * r.1 b).sum := by
  set up : Fin p → Fin p → Prop := fun a b =>
    a.val / max 100 (p / nBatch) ≤ b.val / max 100 (p / nBatch) with hup
  have key : ∀ (Ys : List (List (Vec p K × K))) (m0 : Mat p K),
      ∃ m, Ys.foldlM (fun acc Y => (sumLargeXtx acc Y nBatch).map some) (some m0)
          = .ok (some m) ∧
        ∀ a b, up a b → m a b = m0 a b + xtxOf Ys.flatten a b := by
    intro Ys
    induction Ys with
    | nil => intro m0; exact ⟨m0, rfl, fun a b _ => by simp [xtxOf]⟩
    | cons Y Ys ih =>
      intro m0
      obtain ⟨m1, e1, h1⟩ := sumLargeXtx_entry (some m0) Y hb
      obtain ⟨m, e, h⟩ := ih m1
      refine ⟨m, ?_, ?_⟩
      · rw [List.foldlM_cons, e1]; exact e
      · intro a b hab
        rw [h a b hab, h1, if_pos hab, List.flatten_cons, xtxOf_append]
        simp only [Option.getD_some]; ring
  obtain ⟨m1, e1, h1⟩ := sumLargeXtx_entry none X hb
  obtain ⟨m, e, h⟩ := key Xs m1
  obtain ⟨m', e', h'⟩ := symmetrizeXtx_entry m hb
  refine ⟨m, m', by rw [List.foldlM_cons, e1]; exact e, e', ?_⟩
  have hm : ∀ a b, up a b → m a b = xtxOf (X :: Xs).flatten a b := by
    intro a b hab
    rw [h a b hab, h1, if_pos hab, List.flatten_cons, xtxOf_append]
    simp
  intro a b
  change _ = xtxOf (X :: Xs).flatten a b
  rw [h']
  by_cases hab : b.val / max 100 (p / nBatch) < a.val / max 100 (p / nBatch)
  · rw [if_pos hab, hm b a (by simp only [hup]; omega), xtxOf_symm]
  · rw [if_neg hab, hm a b (by simp only [hup]; omega)]

/-- With `n_batch = 0` both routines raise `ZeroDivisionError`. -/
theorem C08_zero_batches [CommRing K] (m : Mat p K) (X : List (Vec p K × K)) :
    sumLargeXtx none X 0 = .error .zeroDivision ∧ symmetrizeXtx m 0 = .error .zeroDivision :=
  ⟨rfl, rfl⟩

/-- Invariant of the batch loop after the rows `D`. -/
private def Inv [Semiring K] (threshold nBatch : ℕ) (need : Bool) (s : Acc p K)
    (D : List (Row p K)) : Prop :=
  (∀ a b, s.xtx.getD (fun _ _ => 0) a b =
    if p < threshold ∨ a.val / max 100 (p / nBatch) ≤ b.val / max 100 (p / nBatch)
      then xtxOf (D.map Row.weighted) a b else 0) ∧
  s.xty.getD (fun _ => 0) = xtyOf (D.map Row.weighted) ∧
  (need = true → s.xeSum.getD (fun _ => 0) = eSum D) ∧
  (need = true → s.xeSqSum.getD (fun _ => 0) = eSqSum D) ∧
  s.ySq = yyOf (D.map Row.weighted) ∧ s.nData = D.length

private theorem sumArray_getD {α : Type} [AddZeroClass α] (a : Option α) (b : α) :
    sumArray a b = a.getD 0 + b := by
  cases a <;> simp [sumArray]

private theorem step_inv [Semiring K] {threshold nBatch : ℕ} (hb : nBatch ≠ 0) (need : Bool)
    (s : Acc p K) (D rows : List (Row p K)) (h : Inv threshold nBatch need s D) :
    ∃ s', batchStep threshold nBatch need s rows = .ok s' ∧
      Inv threshold nBatch need s' (D ++ rows) ∧ s'.xtx.isSome ∧ s'.xty.isSome := by
  obtain ⟨h1, h2, h3, h4, h5, h6⟩ := h
  obtain ⟨m, em, hm⟩ : ∃ m, sumXtx s.xtx (rows.map Row.weighted) threshold nBatch = .ok m ∧
      ∀ a b, m a b = if p < threshold ∨ a.val / max 100 (p / nBatch) ≤ b.val / max 100 (p / nBatch)
        then xtxOf ((D ++ rows).map Row.weighted) a b else 0 := by
    unfold sumXtx
    by_cases ht : p < threshold
    · rw [if_pos ht]
      refine ⟨_, rfl, ?_⟩
      intro a b
      rw [sumArray_getD, Pi.add_apply, Pi.add_apply]
      have := h1 a b
      simp only [ht, true_or, if_true] at this ⊢
      rw [List.map_append, xtxOf_append, ← this]
      rfl
    · rw [if_neg ht]
      obtain ⟨m, em, hm⟩ := sumLargeXtx_entry s.xtx (rows.map Row.weighted) hb
      refine ⟨m, em, ?_⟩
      intro a b
      rw [hm, h1]
      simp only [ht, false_or]
      split
      · rw [List.map_append, xtxOf_append]
      · rfl
  refine ⟨{ xtx := some m
            xty := some (sumArray s.xty (xtyOf (rows.map Row.weighted)))
            xeSum := if need then some (sumArray s.xeSum (eSum rows)) else s.xeSum
            xeSqSum := if need then some (sumArray s.xeSqSum (eSqSum rows)) else s.xeSqSum
            ySq := s.ySq + yyOf (rows.map Row.weighted)
            nData := s.nData + rows.length }, ?_, ⟨?_, ?_, ?_, ?_, ?_, ?_⟩, rfl, rfl⟩
  · unfold batchStep
    simp only [em, bind, Except.bind, pure, Except.pure]
  · exact hm
  · simp only [Option.getD_some]
    rw [sumArray_getD]
    change s.xty.getD (fun _ => 0) + _ = _
    rw [h2]
    funext a
    simp [xtyOf]
  · intro hn
    simp only [hn, if_true, Option.getD_some]
    rw [sumArray_getD]
    change s.xeSum.getD (fun _ => 0) + _ = _
    rw [h3 hn]
    funext a
    simp [eSum]
  · intro hn
    simp only [hn, if_true, Option.getD_some]
    rw [sumArray_getD]
    change s.xeSqSum.getD (fun _ => 0) + _ = _
    rw [h4 hn]
    funext a
    simp [eSqSum]
  · simp [h5, yyOf]
  · simp [h6]

private theorem loop_inv [Semiring K] {threshold nBatch : ℕ} (hb : nBatch ≠ 0) (need : Bool) :
    ∀ (batches : List (List (Row p K))) (s : Acc p K) (D : List (Row p K)),
      Inv threshold nBatch need s D →
      ∃ s', batches.foldlM (batchStep threshold nBatch need) s = .ok s' ∧
        Inv threshold nBatch need s' (D ++ batches.flatten) ∧
        (batches ≠ [] ∨ (s.xtx.isSome ∧ s.xty.isSome) → s'.xtx.isSome ∧ s'.xty.isSome)
  | [], s, D, h => ⟨s, rfl, by simpa using h, by simp⟩
  | rows :: batches, s, D, h => by
    obtain ⟨s1, e1, i1, o1⟩ := step_inv hb need s D rows h
    obtain ⟨s', e, i, o⟩ := loop_inv hb need batches s1 _ i1
    refine ⟨s', by rw [List.foldlM_cons, e1]; exact e, ?_, fun _ => o (.inr o1)⟩
    rw [List.flatten_cons, ← List.append_assoc]
    exact i

private theorem variance_eq [Field K] [LinearOrder K] [IsStrictOrderedRing K]
    (rows : List (Row p K)) (he : ∃ r ∈ rows, r.isE) (a : Fin p) :
    seqVariance (eSum rows) (eSqSum rows) (rows.filter (·.isE)).length a = stdVariance rows a := by
  set E := rows.filter (·.isE) with hE
  have hne : E ≠ [] := by
    obtain ⟨r, hr, hre⟩ := he
    intro h0
    have : r ∈ E := List.mem_filter.mpr ⟨hr, hre⟩
    rw [h0] at this; simp at this
  have hn : (E.length : K) ≠ 0 := by
    rw [Nat.cast_ne_zero]
    exact fun h => hne (List.length_eq_zero_iff.mp h)
  have hpos : (0 : K) < E.length := by
    rcases lt_or_gt_of_ne hn with h | h
    · exact absurd h (not_lt.mpr (Nat.cast_nonneg _))
    · exact h
  set S := (E.map fun r => r.x a).sum with hS
  set Q := (E.map fun r => r.x a * r.x a).sum with hQ
  have expand : ∀ m : K, (E.map fun r => (r.x a - m) * (r.x a - m)).sum
      = Q - 2 * m * S + (E.length : K) * (m * m) := by
    intro m
    rw [hQ, hS]
    clear_value E
    clear hne hn hpos hS hQ hE S Q
    induction E with
    | nil => simp
    | cons r E ih =>
      simp only [List.map_cons, List.sum_cons, List.length_cons, Nat.cast_add, Nat.cast_one]
      rw [ih]; ring
  have hv : Q / (E.length : K) - S / (E.length : K) * (S / (E.length : K))
      = stdVariance rows a := by
    unfold stdVariance
    simp only
    rw [← hE, ← hS, expand]
    field_simp
    ring
  have hnn : 0 ≤ stdVariance rows a := by
    have hsq : ∀ (m : K) (L : List (Row p K)),
        0 ≤ (L.map fun r => (r.x a - m) * (r.x a - m)).sum := by
      intro m L
      induction L with
      | nil => simp
      | cons r L ih =>
        simp only [List.map_cons, List.sum_cons]
        exact add_nonneg (mul_self_nonneg _) ih
    exact div_nonneg (hsq _ _) hpos.le
  unfold seqVariance eSum eSqSum
  simp only
  rw [← hE, ← hS, ← hQ, hv, if_neg (not_lt.mpr hnn)]

private theorem scaled_products [Field K] (z : Fin p → Bool) (sc : Vec p K) (rows : List (Row p K)) :
    (∀ a b, (if z a || z b then 0 else xtxOf (rows.map Row.weighted) a b) / sc a / sc b =
      xtxOf (rows.map fun r =>
        (Row.weighted { r with x := fun a => (if z a then 0 else r.x a) / sc a })) a b) ∧
    (∀ a, (if z a then 0 else xtyOf (rows.map Row.weighted) a) / sc a =
      xtyOf (rows.map fun r =>
        (Row.weighted { r with x := fun a => (if z a then 0 else r.x a) / sc a })) a) := by
  constructor
  · intro a b
    unfold xtxOf
    rw [List.map_map, List.map_map]
    induction rows with
    | nil => simp
    | cons r rows ih =>
      simp only [List.map_cons, List.sum_cons]
      rw [← ih]
      by_cases ha : z a
      · simp [Row.weighted, ha]
      · by_cases hb : z b
        · simp [Row.weighted, hb]
        · simp only [ha, hb, Bool.or_self, Bool.false_eq_true, if_false, Row.weighted,
            Function.comp]
          ring
  · intro a
    unfold xtyOf
    rw [List.map_map, List.map_map]
    induction rows with
    | nil => simp
    | cons r rows ih =>
      simp only [List.map_cons, List.sum_cons]
      rw [← ih]
      by_cases ha : z a
      · simp [Row.weighted, ha]
      · simp only [ha, Bool.false_eq_true, if_false, Row.weighted, Function.comp]
        ring

/-- The in-memory quantities do not depend on the order of the rows. -/
private theorem calcXY_perm [Field K] [LinearOrder K] (sqrt : K → K) (f : Bool) (thr : K)
    (scales : Option (Vec p K)) {rows rows' : List (Row p K)} (h : rows.Perm rows') :
    calcXY sqrt f thr scales rows = calcXY sqrt f thr scales rows' := by
  have hs : stdVariance rows = stdVariance rows' := by
    funext a
    unfold stdVariance
    have hE := h.filter (·.isE)
    simp only
    rw [(hE.map fun r => r.x a).sum_eq, hE.length_eq, (hE.map _).sum_eq]
  have hX : ∀ (g : Row p K → Vec p K × K), xtxOf (rows.map g) = xtxOf (rows'.map g) ∧
      xtyOf (rows.map g) = xtyOf (rows'.map g) ∧ yyOf (rows.map g) = yyOf (rows'.map g) := by
    intro g
    have hg := h.map g
    refine ⟨?_, ?_, ?_⟩
    · funext a b; exact (hg.map _).sum_eq
    · funext a; exact (hg.map _).sum_eq
    · exact (hg.map _).sum_eq
  unfold calcXY
  simp only [hs, h.length_eq, (hX _).1, (hX _).2.1, (hX _).2.2]

/-- **C07 (what holds).** Full statement: for every threshold.  Proved: whenever the number of
features differs from the block threshold, and whatever way the rows are cut into (at least one)
batches and reordered, the sequential computation gives exactly the quantities of the in-memory
computation: `X^T X`, `X^T y`, `y^T y`, the number of rows and the feature scales (including the
scaling and zeroing of constant features).  Missing: `n_features = threshold`, where it is false
(`C07_threshold_violation`). -/
theorem C07_sequential_eq_standard_partial [Field K] [LinearOrder K] [IsStrictOrderedRing K]
    (sqrt : K → K) (threshold nBatch : ℕ) (hb : nBatch ≠ 0) (hp : p ≠ threshold)
    (includeForce : Bool) (thr : K) (scales : Option (Vec p K))
    (batches : List (List (Row p K))) (hne : batches ≠ []) (rows : List (Row p K))
    (hperm : batches.flatten.Perm rows) (he : ∃ r ∈ rows, r.isE) :
    calcXtxXty sqrt threshold nBatch includeForce thr scales batches =
      .ok (calcXY sqrt includeForce thr scales rows) := by
  rw [← calcXY_perm sqrt includeForce thr scales hperm]
  have he' : ∃ r ∈ batches.flatten, r.isE := by
    obtain ⟨r, hr, h⟩ := he
    exact ⟨r, hperm.mem_iff.mpr hr, h⟩
  set D := batches.flatten with hD
  obtain ⟨s, es, hinv, hsome⟩ := loop_inv (threshold := threshold) hb scales.isNone batches
    { ySq := (0 : K) } [] ⟨by intro a b; simp [xtxOf], by funext a; simp [xtyOf],
      fun _ => by funext a; simp [eSum], fun _ => by funext a; simp [eSqSum], by simp [yyOf], rfl⟩
  obtain ⟨o1, o2⟩ := hsome (.inl hne)
  obtain ⟨xtx0, hx0⟩ := Option.isSome_iff_exists.mp o1
  obtain ⟨xty0, hy0⟩ := Option.isSome_iff_exists.mp o2
  rw [List.nil_append, ← hD] at hinv
  obtain ⟨h1, h2, h3, h4, h5, h6⟩ := hinv
  rw [hx0] at h1
  rw [hy0] at h2
  simp only [Option.getD_some] at h1 h2
  -- the matrix after the optional symmetrisation is the full product
  obtain ⟨xtx, ex, hx⟩ : ∃ xtx, maybeSymmetrize threshold nBatch xtx0
      = Except.ok xtx ∧ xtx = xtxOf (D.map Row.weighted) := by
    unfold maybeSymmetrize
    rcases Nat.lt_or_gt_of_ne hp with hlt | hgt
    · rw [if_neg (by omega)]
      refine ⟨xtx0, rfl, ?_⟩
      funext a b
      rw [h1, if_pos (.inl hlt)]
    · rw [if_pos hgt]
      obtain ⟨m, em, hm⟩ := symmetrizeXtx_entry xtx0 hb
      refine ⟨m, em, ?_⟩
      funext a b
      rw [hm]
      by_cases hab : b.val / max 100 (p / nBatch) < a.val / max 100 (p / nBatch)
      · rw [if_pos hab, h1, if_pos (.inr (by omega)), xtxOf_symm]
      · rw [if_neg hab, h1, if_pos (.inr (by omega))]
  have hn : (batches.map fun b => (b.filter (·.isE)).length).sum = (D.filter (·.isE)).length := by
    rw [hD, List.filter_flatten, List.length_flatten, List.map_map]
    rfl
  have hsc : (scales.getD fun a =>
      sqrt (seqVariance (s.xeSum.getD fun _ => 0) (s.xeSqSum.getD fun _ => 0)
        (D.filter (·.isE)).length a)) = scales.getD fun a => sqrt (stdVariance D a) := by
    cases hs : scales with
    | some v => rfl
    | none =>
      simp only [Option.getD_none]
      funext a
      rw [h3 (by rw [hs]; rfl), h4 (by rw [hs]; rfl), variance_eq D he' a]
  unfold calcXtxXty
  simp only [es, hx0, hy0, ex, orErr, bind, Except.bind, pure, Except.pure]
  simp only [hn, hsc, calcXY, Except.ok.injEq]
  obtain ⟨p1, p2⟩ := scaled_products (roundScales (scales.getD fun a => sqrt (stdVariance D a))
    includeForce thr).2 (roundScales (scales.getD fun a => sqrt (stdVariance D a))
    includeForce thr).1 D
  congr 1
  · funext a b; rw [hx]; exact p1 a b
  · funext a; rw [h2]; exact p2 a
  · rw [h5]
    unfold yyOf
    rw [List.map_map, List.map_map]
    rfl

/-- **C07, violation.** When the number of features equals the threshold, the block-wise path is
taken but the result is never mirrored: every entry whose row block lies after its column block is
zero, whatever the data. -/
theorem C07_threshold_violation [Field K] [LinearOrder K] [IsStrictOrderedRing K] (sqrt : K → K)
    (nBatch : ℕ) (hb : nBatch ≠ 0) (includeForce : Bool) (thr : K) (scales : Option (Vec p K))
    (batches : List (List (Row p K))) (hne : batches ≠ []) :
    ∃ N, calcXtxXty sqrt p nBatch includeForce thr scales batches = .ok N ∧
      ∀ a b : Fin p, b.val / max 100 (p / nBatch) < a.val / max 100 (p / nBatch) →
        N.xtx a b = 0 := by
  obtain ⟨s, es, hinv, hsome⟩ := loop_inv (threshold := p) hb scales.isNone batches
    { ySq := (0 : K) } [] ⟨by intro a b; simp [xtxOf], by funext a; simp [xtyOf],
      fun _ => by funext a; simp [eSum], fun _ => by funext a; simp [eSqSum], by simp [yyOf], rfl⟩
  obtain ⟨o1, o2⟩ := hsome (.inl hne)
  obtain ⟨xtx0, hx0⟩ := Option.isSome_iff_exists.mp o1
  obtain ⟨xty0, hy0⟩ := Option.isSome_iff_exists.mp o2
  have h1 := hinv.1
  rw [hx0] at h1
  simp only [Option.getD_some] at h1
  unfold calcXtxXty
  simp only [es, hx0, hy0, orErr, bind, Except.bind, pure, Except.pure, maybeSymmetrize,
    gt_iff_lt, lt_irrefl, if_false]
  refine ⟨_, rfl, ?_⟩
  intro a b hab
  have h0 : xtx0 a b = 0 := by rw [h1, if_neg (by omega)]
  simp only [h0, ite_self, zero_div]

/-- Concrete case of the violation: 101 features (threshold 101, default `n_batch = 10`), one energy
row of ones with weight 1.  The in-memory `X^T X` is 1 everywhere, the sequential one has a zero. -/
theorem C07_threshold_witness :
    ∃ N, calcXtxXty (p := 101) (K := ℚ) id 101 10 true (1/100) (some fun _ => 1)
        [[⟨fun _ => 1, 1, 1, true⟩]] = .ok N ∧
      N.xtx 100 0 = 0 ∧
      (calcXY (p := 101) (K := ℚ) id true (1/100) (some fun _ => 1)
        [⟨fun _ => 1, 1, 1, true⟩]).xtx 100 0 = 1 := by
  obtain ⟨N, e, h⟩ := C07_threshold_violation (p := 101) (K := ℚ) id 10 (by decide) true (1/100)
    (some fun _ => 1) [[⟨fun _ => 1, 1, 1, true⟩]] (by simp)
  exact ⟨N, e, h 100 0 (by decide), by decide +kernel⟩

/-- Three rows over two features, cut into two batches: the hypotheses of C07 hold. -/
def exBatches : List (List (Row 2 ℚ)) :=
  [[⟨(fun a => if a = 0 then 1 else 2), 1, 3, true⟩], [⟨(fun a => if a = 0 then 2 else 5), 1/2, 1, true⟩, ⟨(fun a => if a = 0 then 0 else 1), 1/3, -1, false⟩]]
example : (2 : ℕ) ≠ 50000 ∧ exBatches ≠ [] ∧ (∃ r ∈ exBatches.flatten, r.isE) := by
  refine ⟨by decide, by simp [exBatches], _, by simp only [exBatches, List.flatten]; exact List.mem_cons_self, rfl⟩
example : ((calcXtxXty id 50000 10 true (1/100) none exBatches).toOption.map
    fun N => (N.xtx 0 0, N.xtx 0 1, N.xtx 1 1, N.xty 0, N.scales 0)) =
    some (32, 8, 1492/729, 14, 1/4) := by decide +kernel
/-- A run that takes the block-wise path and the mirroring (threshold below the feature count). -/
example : ((calcXtxXty id 1 10 true (1/100) none exBatches).toOption.map
    fun N => (N.xtx 0 0, N.xtx 0 1, N.xtx 1 0)) = some (32, 8, 8) := by decide +kernel

end Verif.Sequential
