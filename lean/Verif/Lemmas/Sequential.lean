import Verif.Model.Sequential
import Verif.Lemmas.Dataset
import Mathlib.Algebra.BigOperators.Ring.List
import Mathlib.Algebra.BigOperators.Field
import Mathlib.Algebra.BigOperators.Group.List.Basic
import Mathlib.Tactic.Ring
import Mathlib.Tactic.FieldSimp
import Mathlib.Tactic.Linarith

namespace Verif.Sequential
variable {p : ℕ} {K : Type}

/-- Observing a loop whose steps either apply `g` to the observation or leave it alone. -/
theorem foldl_obs {σ ι β : Type} (f : σ → ι → σ) (obs : σ → β) (hit : ι → Bool) (g : β → β) :
    ∀ (L : List ι) (_ : ∀ q ∈ L, ∀ m, obs (f m q) = if hit q then g (obs m) else obs m) (m : σ),
      obs (L.foldl f m) = g^[L.countP hit] (obs m)
  | [], _, m => rfl
  | q :: L, h, m => by
    rw [List.foldl_cons, foldl_obs f obs hit g L (fun q hq => h q (by simp [hq])),
      h q (by simp)]
    by_cases hq : hit q
    · rw [List.countP_cons_of_pos hq, if_pos hq, Function.iterate_succ_apply]
    · rw [List.countP_cons_of_neg hq, if_neg hq]

theorem blockIds_eq (p : ℕ) {nBatch : ℕ} (hb : nBatch ≠ 0) :
    blockIds p nBatch = .ok ((List.range ((p + max 100 (p / nBatch) - 1) / max 100 (p / nBatch))).map
      fun i => (i * max 100 (p / nBatch), min ((i + 1) * max 100 (p / nBatch)) p)) := by
  have hpos : 0 < max 100 (p / nBatch) := by omega
  obtain ⟨bs, es, e, hz⟩ := Dataset.batchSlice_zip p (max 100 (p / nBatch)) hpos
  unfold blockIds
  rw [if_neg hb, e]
  simp only [Except.map, hz]

/-- Block `i` of size `bs` contains exactly the indices with quotient `i`. -/
theorem inBlock_iff {bs : ℕ} (hb : 0 < bs) (a : Fin p) (i : ℕ) :
    inBlock a (i * bs, min ((i + 1) * bs) p) = decide (a.val / bs = i) := by
  have ha := a.isLt
  unfold inBlock
  simp only [Nat.lt_min, ha, and_true]
  rw [← Bool.decide_and]
  congr 1
  rw [eq_iff_iff, Nat.div_eq_iff hb]
  constructor
  · rintro ⟨h1, h2⟩
    have : (i + 1) * bs = i * bs + bs := by ring
    omega
  · rintro ⟨h1, h2⟩
    have : (i + 1) * bs = i * bs + bs := by ring
    omega

theorem countP_zipIdx_eq {α : Type} (l : List α) (hit : α × ℕ → Bool) (k : ℕ) (hk : k < l.length)
    (h : ∀ q ∈ l.zipIdx, hit q = decide (q.2 = k)) : l.zipIdx.countP hit = 1 := by
  have h1 : l.zipIdx.countP hit = (l.zipIdx.map (·.2)).countP (fun j => decide (j = k)) := by
    rw [List.countP_map]
    apply List.countP_congr
    intro q hq
    rw [h q hq]; rfl
  rw [h1]
  have h2 : l.zipIdx.map (·.2) = List.range l.length := by
    rw [List.zipIdx_map_snd, List.range_eq_range']
  rw [h2]
  have h3 := (List.nodup_range (n := l.length)).count (a := k)
  rw [if_pos (List.mem_range.mpr hk)] at h3
  rw [List.count_eq_countP] at h3
  rw [← h3]
  apply List.countP_congr
  intro j _
  simp

theorem countP_zipIdx_zero {α : Type} (l : List α) (hit : α × ℕ → Bool)
    (h : ∀ q ∈ l.zipIdx, hit q = false) : l.zipIdx.countP hit = 0 := by
  rw [List.countP_eq_zero]
  intro q hq; simp [h q hq]

/-- Members of the numbered block list. -/
theorem mem_zipIdx_blocks {n bs p : ℕ} {q : (ℕ × ℕ) × ℕ}
    (hq : q ∈ ((List.range n).map fun i => (i * bs, min ((i + 1) * bs) p)).zipIdx) :
    q.1 = (q.2 * bs, min ((q.2 + 1) * bs) p) ∧ q.2 < n := by
  obtain ⟨⟨x, y⟩, k⟩ := q
  have h := List.mem_zipIdx hq
  simp only [List.length_map, List.length_range, Nat.zero_add, Nat.sub_zero, List.getElem_map,
    List.getElem_range] at h
  exact ⟨h.2.2, h.2.1⟩

theorem quot_lt {bs : ℕ} (hb : 0 < bs) (a : Fin p) : a.val / bs < (p + bs - 1) / bs := by
  have ha := a.isLt
  rw [Nat.div_lt_iff_lt_mul hb]
  obtain ⟨m, hm, -, h⟩ := Dataset.rangeStep_tile bs hb p
  have hm0 : 0 < m := by
    rcases Nat.eq_zero_or_pos m with h0 | h0
    · rw [h0] at hm
      have := (Nat.div_eq_zero_iff.mp hm.symm)
      omega
    · exact h0
  rw [← hm]
  exact lt_of_lt_of_le ha (h hm0).2

/-- **Effect of `sum_large_xtx` on one entry**: the product is added once for entries whose row block
is not after the column block, other entries stay. -/
theorem sumLargeXtx_entry [Semiring K] (xtx : Option (Mat p K)) (X : List (Vec p K × K))
    {nBatch : ℕ} (hb : nBatch ≠ 0) :
    ∃ m, sumLargeXtx xtx X nBatch = .ok m ∧ ∀ a b, m a b =
      (if a.val / max 100 (p / nBatch) ≤ b.val / max 100 (p / nBatch)
        then xtx.getD (fun _ _ => 0) a b + xtxOf X a b else xtx.getD (fun _ _ => 0) a b) := by
  unfold sumLargeXtx
  rw [blockIds_eq p hb]
  refine ⟨_, rfl, ?_⟩
  intro a b
  set bs := max 100 (p / nBatch) with hbs
  have hpos : 0 < bs := by omega
  set ids := (List.range ((p + bs - 1) / bs)).map fun i => (i * bs, min ((i + 1) * bs) p) with hids
  have hlen : ids.length = (p + bs - 1) / bs := by rw [hids]; simp
  -- inner loop
  have inner : ∀ (ri : (ℕ × ℕ) × ℕ), ri ∈ ids.zipIdx → ∀ m : Mat p K,
      (ids.zipIdx.foldl (fun m cj => if ri.2 ≤ cj.2 then addBlock X ri.1 cj.1 m else m) m) a b =
      if decide (a.val / bs = ri.2) && decide (ri.2 ≤ b.val / bs) then m a b + xtxOf X a b
      else m a b := by
    intro ri hri m
    obtain ⟨hr1, hr2⟩ := mem_zipIdx_blocks hri
    have := foldl_obs (fun m cj => if ri.2 ≤ cj.2 then addBlock X ri.1 cj.1 m else m)
      (fun m : Mat p K => m a b)
      (fun cj => decide (ri.2 ≤ cj.2) && (inBlock a ri.1 && inBlock b cj.1))
      (fun v => v + xtxOf X a b) ids.zipIdx (by
        intro cj _ m
        by_cases h : ri.2 ≤ cj.2
        · simp [h, addBlock]
        · simp [h]) m
    rw [this, hr1, inBlock_iff hpos]
    by_cases hit : decide (a.val / bs = ri.2) && decide (ri.2 ≤ b.val / bs)
    · have hc : ids.zipIdx.countP (fun cj => decide (ri.2 ≤ cj.2) &&
          (decide (a.val / bs = ri.2) && inBlock b cj.1)) = 1 := by
        apply countP_zipIdx_eq _ _ (b.val / bs) (by rw [hlen]; exact quot_lt hpos b)
        intro cj hcj
        obtain ⟨hc1, -⟩ := mem_zipIdx_blocks hcj
        rw [hc1, inBlock_iff hpos]
        simp only [Bool.and_eq_true, decide_eq_true_eq] at hit
        simp only [hit.1, decide_true, Bool.true_and]
        by_cases h : b.val / bs = cj.2
        · simp [h, h ▸ hit.2]
        · simp [h, Ne.symm h]
      rw [hc, if_pos hit]; rfl
    · have hc : ids.zipIdx.countP (fun cj => decide (ri.2 ≤ cj.2) &&
          (decide (a.val / bs = ri.2) && inBlock b cj.1)) = 0 := by
        apply countP_zipIdx_zero
        intro cj hcj
        obtain ⟨hc1, -⟩ := mem_zipIdx_blocks hcj
        rw [hc1, inBlock_iff hpos]
        by_contra hne
        simp only [Bool.not_eq_false, Bool.and_eq_true, decide_eq_true_eq] at hne hit
        exact hit ⟨hne.2.1, hne.2.2 ▸ hne.1⟩
      rw [hc, if_neg hit]; rfl
  have := foldl_obs (fun m ri => ids.zipIdx.foldl
        (fun m cj => if ri.2 ≤ cj.2 then addBlock X ri.1 cj.1 m else m) m)
      (fun m : Mat p K => m a b)
      (fun ri => decide (a.val / bs = ri.2) && decide (ri.2 ≤ b.val / bs))
      (fun v => v + xtxOf X a b) ids.zipIdx (by
        intro ri hri m; exact inner ri hri m) (xtx.getD (fun _ _ => 0))
  rw [this]
  by_cases h : a.val / bs ≤ b.val / bs
  · rw [if_pos h, countP_zipIdx_eq _ _ (a.val / bs) (by rw [hlen]; exact quot_lt hpos a)]
    · rfl
    · intro q hq
      by_cases e : a.val / bs = q.2
      · simp [e, e ▸ h]
      · simp [e, Ne.symm e]
  · rw [if_neg h, countP_zipIdx_zero]
    · rfl
    · intro q hq
      by_contra hne
      simp only [Bool.not_eq_false, Bool.and_eq_true, decide_eq_true_eq] at hne
      exact h (hne.1 ▸ hne.2)

/-- **Effect of `symmetrize_xtx` on one entry**: entries below the block diagonal get the mirrored
value, others stay. -/
theorem symmetrizeXtx_entry (m0 : Mat p K) {nBatch : ℕ} (hb : nBatch ≠ 0) :
    ∃ m, symmetrizeXtx m0 nBatch = .ok m ∧ ∀ a b, m a b =
      (if b.val / max 100 (p / nBatch) < a.val / max 100 (p / nBatch) then m0 b a else m0 a b) := by
  unfold symmetrizeXtx
  rw [blockIds_eq p hb]
  refine ⟨_, rfl, ?_⟩
  intro a b
  set bs := max 100 (p / nBatch) with hbs
  have hpos : 0 < bs := by omega
  set ids := (List.range ((p + bs - 1) / bs)).map fun i => (i * bs, min ((i + 1) * bs) p) with hids
  have hlen : ids.length = (p + bs - 1) / bs := by rw [hids]; simp
  -- entries not below the block diagonal never change
  have stay : ∀ (x y : Fin p), ¬ y.val / bs < x.val / bs → ∀ (ri cj : (ℕ × ℕ) × ℕ),
      ri ∈ ids.zipIdx → cj ∈ ids.zipIdx → ∀ m : Mat p K,
      (if ri.2 > cj.2 then mirrorBlock ri.1 cj.1 m else m) x y = m x y := by
    intro x y hxy ri cj hri hcj m
    obtain ⟨hr1, -⟩ := mem_zipIdx_blocks hri
    obtain ⟨hc1, -⟩ := mem_zipIdx_blocks hcj
    by_cases h : ri.2 > cj.2
    · rw [if_pos h]
      unfold mirrorBlock
      rw [hr1, hc1, inBlock_iff hpos, inBlock_iff hpos, if_neg]
      simp only [Bool.and_eq_true, decide_eq_true_eq, not_and]
      intro h1 h2; omega
    · rw [if_neg h]
  by_cases hab : b.val / bs < a.val / bs
  · rw [if_pos hab]
    have hba : ¬ a.val / bs < b.val / bs := by omega
    have inner : ∀ (ri : (ℕ × ℕ) × ℕ), ri ∈ ids.zipIdx → ∀ m : Mat p K,
        ((ids.zipIdx.foldl (fun m cj => if ri.2 > cj.2 then mirrorBlock ri.1 cj.1 m else m) m) a b,
         (ids.zipIdx.foldl (fun m cj => if ri.2 > cj.2 then mirrorBlock ri.1 cj.1 m else m) m) b a) =
        if decide (a.val / bs = ri.2) then (m b a, m b a) else (m a b, m b a) := by
      intro ri hri m
      obtain ⟨hr1, hr2⟩ := mem_zipIdx_blocks hri
      have := foldl_obs (fun m cj => if ri.2 > cj.2 then mirrorBlock ri.1 cj.1 m else m)
        (fun m : Mat p K => (m a b, m b a))
        (fun cj => decide (a.val / bs = ri.2) && decide (b.val / bs = cj.2))
        (fun v => (v.2, v.2)) ids.zipIdx (by
          intro cj hcj m
          obtain ⟨hc1, -⟩ := mem_zipIdx_blocks hcj
          have e2 := stay b a hba ri cj hri hcj m
          simp only [e2]
          by_cases h : ri.2 > cj.2
          · rw [if_pos h]
            unfold mirrorBlock
            rw [hr1, hc1, inBlock_iff hpos, inBlock_iff hpos]
            split <;> rfl
          · rw [if_neg h, if_neg]
            simp only [Bool.and_eq_true, decide_eq_true_eq, not_and]
            intro h1 h2; omega) m
      rw [this]
      by_cases hit : a.val / bs = ri.2
      · rw [countP_zipIdx_eq _ _ (b.val / bs) (by rw [hlen]; exact quot_lt hpos b)]
        · simp [hit]
        · intro q _
          simp [hit, eq_comm]
      · rw [countP_zipIdx_zero _ _ (by intro q _; simp [hit])]
        simp [hit]
    have := foldl_obs (fun m ri => ids.zipIdx.foldl
        (fun m cj => if ri.2 > cj.2 then mirrorBlock ri.1 cj.1 m else m) m)
      (fun m : Mat p K => (m a b, m b a)) (fun ri => decide (a.val / bs = ri.2))
      (fun v => (v.2, v.2)) ids.zipIdx (by
        intro ri hri m; exact inner ri hri m) m0
    rw [countP_zipIdx_eq _ _ (a.val / bs) (by rw [hlen]; exact quot_lt hpos a)
      (by intro q _; simp [eq_comm])] at this
    exact congrArg Prod.fst this
  · rw [if_neg hab]
    have inner : ∀ (ri : (ℕ × ℕ) × ℕ), ri ∈ ids.zipIdx → ∀ m : Mat p K,
        (ids.zipIdx.foldl (fun m cj => if ri.2 > cj.2 then mirrorBlock ri.1 cj.1 m else m) m) a b
          = m a b := by
      intro ri hri m
      have := foldl_obs (fun m cj => if ri.2 > cj.2 then mirrorBlock ri.1 cj.1 m else m)
        (fun m : Mat p K => m a b) (fun _ => false) id ids.zipIdx (by
          intro cj hcj m
          simpa using stay a b hab ri cj hri hcj m) m
      simpa using this
    have := foldl_obs (fun m ri => ids.zipIdx.foldl
        (fun m cj => if ri.2 > cj.2 then mirrorBlock ri.1 cj.1 m else m) m)
      (fun m : Mat p K => m a b) (fun _ => false) id ids.zipIdx (by
        intro ri hri m; simpa using inner ri hri m) m0
    simpa using this

theorem xtxOf_append [Semiring K] (X Y : List (Vec p K × K)) (a b : Fin p) :
    xtxOf (X ++ Y) a b = xtxOf X a b + xtxOf Y a b := by
  unfold xtxOf; simp

theorem xtxOf_symm [CommSemiring K] (X : List (Vec p K × K)) (a b : Fin p) :
    xtxOf X a b = xtxOf X b a := by
  unfold xtxOf
  congr 1
  apply List.map_congr_left
  intro r _; ring

end Verif.Sequential
