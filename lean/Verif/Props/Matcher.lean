import Verif.Model.Matcher
import Verif.Spec.Matcher
import Verif.Props.GridSearchHist

/-!
# C97: normalized positions
-/

namespace Verif.Matcher
open Verif.Spec
open Verif.GridSearch (rint rint_nearest nearest_iff rint_int)

/-! ## Helper lemmas -/

theorem leastRow_spec (l : List (List ℚ)) (h : l ≠ []) :
    ∃ r, leastRow l = some r ∧ r ∈ l ∧ ∀ s ∈ l, r ≤ s := by
  cases l with
  | nil => exact absurd rfl h
  | cons a l =>
    have key : ∀ (l : List (List ℚ)) (a : List ℚ), (l.foldl (fun b r => if r < b then r else b) a ∈ a :: l) ∧
        (∀ s ∈ a :: l, l.foldl (fun b r => if r < b then r else b) a ≤ s) := by
      intro l
      induction l with
      | nil => intro a; simp
      | cons b l ih =>
        intro a
        simp only [List.foldl_cons]
        by_cases hb : b < a
        · rw [if_pos hb]
          obtain ⟨h1, h2⟩ := ih b
          refine ⟨List.mem_cons_of_mem _ h1, ?_⟩
          intro s hs
          rcases List.mem_cons.mp hs with rfl | hs
          · exact le_trans (h2 b (by simp)) hb.le
          · exact h2 s hs
        · rw [if_neg hb]
          obtain ⟨h1, h2⟩ := ih a
          refine ⟨?_, ?_⟩
          · rcases List.mem_cons.mp h1 with h | h
            · rw [h]; simp
            · simp [h]
          · intro s hs
            rcases List.mem_cons.mp hs with rfl | hs
            · exact h2 _ (by simp)
            · rcases List.mem_cons.mp hs with rfl | hs
              · exact le_trans (h2 a (by simp)) (not_lt.mp hb)
              · exact h2 s (by simp [hs])
    exact ⟨_, rfl, (key l a).1, (key l a).2⟩

theorem leastRow_perm {l l' : List (List ℚ)} (h : l.Perm l') : leastRow l = leastRow l' := by
  by_cases hl : l = []
  · subst hl; rw [h.nil_eq]
  · have hl' : l' ≠ [] := fun e => hl (by rw [e] at h; exact h.eq_nil)
    obtain ⟨r, e, m, b⟩ := leastRow_spec l hl
    obtain ⟨r', e', m', b'⟩ := leastRow_spec l' hl'
    rw [e, e', le_antisymm (b r' (h.mem_iff.mpr m')) (b' r (h.mem_iff.mp m))]

theorem half_grid {D : ℕ} (hD : 1 ≤ D) : ∃ m : ℤ, (1 / 2 : ℚ) * 10 ^ D = m := by
  obtain ⟨d, rfl⟩ := Nat.exists_eq_add_of_le hD
  refine ⟨5 * 10 ^ d, ?_⟩
  push_cast
  rw [pow_add]; ring

theorem rint_half (x : ℚ) : |x - rint x| ≤ 1 / 2 := by
  exact (rint_nearest x).1

theorem pow_pos' (D : ℕ) : (0 : ℚ) < 10 ^ D := by positivity

/-- The rounded number of `_round_positions`. -/
theorem wrap_cases {tol : ℚ} {D : ℕ} (hD : 1 ≤ D) (ht : tol ≤ 1 / 10 ^ D) (h0 : 0 < tol) (x : ℚ) :
    ∃ m : ℤ, |x - rint x - m / 10 ^ D| ≤ 1 / (2 * 10 ^ D) ∧ |(m : ℚ) / 10 ^ D| ≤ 1 / 2 ∧
      (HasDecimals D x → x - rint x = m / 10 ^ D) ∧
      ((m : ℚ) / 10 ^ D = 1 / 2 ∧ wrap tol D x = -1 / 2 ∨ (m : ℚ) / 10 ^ D ≠ 1 / 2 ∧ wrap tol D x = m / 10 ^ D) := by
  have hU := pow_pos' D
  obtain ⟨h, hh⟩ := half_grid hD
  refine ⟨rint ((x - rint x) * 10 ^ D), ?_, ?_, ?_, ?_⟩
  · have := rint_half ((x - rint x) * 10 ^ D)
    have e : x - rint x - (rint ((x - rint x) * 10 ^ D) : ℚ) / 10 ^ D =
        ((x - rint x) * 10 ^ D - rint ((x - rint x) * 10 ^ D)) / 10 ^ D := by field_simp
    rw [e, abs_div, abs_of_pos hU, div_le_iff₀ hU]
    calc _ ≤ _ := this
      _ = _ := by field_simp
  · have h1 := abs_le.mp (rint_half x)
    have h2 := abs_le.mp (rint_half ((x - rint x) * 10 ^ D))
    set m := rint ((x - rint x) * 10 ^ D)
    have u : (x - rint x) * 10 ^ D ≤ h := by rw [← hh]; exact mul_le_mul_of_nonneg_right h1.2 hU.le
    have l : -(h : ℚ) ≤ (x - rint x) * 10 ^ D := by
      rw [← hh, ← neg_mul]; exact mul_le_mul_of_nonneg_right h1.1 hU.le
    have m1 : m ≤ h := by
      have : (m : ℚ) < h + 1 := by linarith
      have : m < h + 1 := by exact_mod_cast this
      omega
    have m2 : -h ≤ m := by
      have : (-h - 1 : ℚ) < m := by linarith
      have : -h - 1 < m := by exact_mod_cast this
      omega
    rw [abs_div, abs_of_pos hU, div_le_iff₀ hU, hh, abs_le]
    exact ⟨by exact_mod_cast m2, by exact_mod_cast m1⟩
  · rintro ⟨k, rfl⟩
    have e : ((k : ℚ) / 10 ^ D - rint ((k : ℚ) / 10 ^ D)) * 10 ^ D = ((k - rint ((k : ℚ) / 10 ^ D) * 10 ^ D : ℤ) : ℚ) := by
      push_cast
      field_simp
    rw [e, rint_int, ← e]
    field_simp
  · simp only [wrap]
    set m := rint ((x - rint x) * 10 ^ D)
    by_cases hm : (m : ℚ) / 10 ^ D = 1 / 2
    · left
      rw [if_pos (by rw [hm]; simpa using h0)]
      exact ⟨hm, rfl⟩
    · right
      rw [if_neg]
      · exact ⟨hm, rfl⟩
      · intro hlt
        apply hm
        have e : (m : ℚ) / 10 ^ D - 1 / 2 = ((m - h : ℤ) : ℚ) / 10 ^ D := by
          push_cast
          rw [← hh]
          field_simp
        rw [e, abs_div, abs_of_pos hU] at hlt
        have hlt' : |((m - h : ℤ) : ℚ)| / 10 ^ D < 1 / 10 ^ D := lt_of_lt_of_le hlt ht
        rw [div_lt_div_iff_of_pos_right hU] at hlt'
        have : |m - h| < 1 := by exact_mod_cast hlt'
        have hmh : m = h := by
          have := Int.abs_lt_one_iff.mp this
          omega
        rw [hmh, ← hh]; field_simp

theorem wrap_near {tol : ℚ} {D : ℕ} (hD : 1 ≤ D) (ht : tol ≤ 1 / 10 ^ D) (h0 : 0 < tol) (x : ℚ) :
    NearMod1 (1 / (2 * 10 ^ D)) x (wrap tol D x) := by
  obtain ⟨m, h1, h2, h3, h4 | h4⟩ := wrap_cases hD ht h0 x
  · refine ⟨-rint x - 1, ?_⟩
    rw [h4.2]
    rw [h4.1, abs_le] at h1
    rw [abs_le]
    push_cast
    constructor <;> linarith [h1.1, h1.2]
  · refine ⟨-rint x, ?_⟩
    rw [h4.2, abs_sub_comm]
    push_cast
    convert h1 using 2
    ring

theorem wrap_range {tol : ℚ} {D : ℕ} (hD : 1 ≤ D) (ht : tol ≤ 1 / 10 ^ D) (h0 : 0 < tol) (x : ℚ) :
    -1 / 2 ≤ wrap tol D x ∧ wrap tol D x < 1 / 2 := by
  obtain ⟨m, h1, h2, h3, h4 | h4⟩ := wrap_cases hD ht h0 x
  · rw [h4.2]; norm_num
  · rw [h4.2]
    rw [abs_le] at h2
    exact ⟨by linarith [h2.1], lt_of_le_of_ne h2.2 h4.1⟩

theorem wrap_grid {tol : ℚ} {D : ℕ} (hD : 1 ≤ D) (ht : tol ≤ 1 / 10 ^ D) (h0 : 0 < tol) (x : ℚ) (hx : HasDecimals D x) :
    ∃ k : ℤ, wrap tol D x = x + k := by
  obtain ⟨m, h1, h2, h3, h4 | h4⟩ := wrap_cases hD ht h0 x
  · refine ⟨-rint x - 1, ?_⟩
    rw [h4.2]
    have := h3 hx
    rw [h4.1] at this
    push_cast
    linarith
  · refine ⟨-rint x, ?_⟩
    rw [h4.2, ← h3 hx]
    push_cast
    ring

theorem wrap_period {tol : ℚ} {D : ℕ} (hD : 1 ≤ D) (ht : tol ≤ 1 / 10 ^ D) (h0 : 0 < tol) (x : ℚ) (k : ℤ) :
    wrap tol D (x + k) = wrap tol D x := by
  obtain ⟨h, hh⟩ := half_grid hD
  have hU := pow_pos' D
  have a1 := abs_le.mp (rint_half x)
  have a2 := abs_le.mp (rint_half (x + k))
  have half : ∀ y : ℚ, y - rint y = 1 / 2 ∨ y - rint y = -1 / 2 → wrap tol D y = -1 / 2 := by
    intro y hy
    simp only [wrap]
    rcases hy with hy | hy
    · rw [hy, hh, rint_int, ← hh]
      rw [if_pos]
      have : (1 / 2 * 10 ^ D : ℚ) / 10 ^ D = 1 / 2 := by field_simp
      rw [this]; simpa using h0
    · have e : (-1 / 2 : ℚ) * 10 ^ D = ((-h : ℤ) : ℚ) := by push_cast; rw [← hh]; ring
      rw [hy, e, rint_int]
      have e2 : ((-h : ℤ) : ℚ) / 10 ^ D = -1 / 2 := by rw [← e]; field_simp
      rw [e2]
      split <;> rfl
  -- the remainders differ by an integer
  set j : ℤ := k - rint (x + k) + rint x with hj
  have e : x + k - rint (x + k) = x - rint x + j := by rw [hj]; push_cast; ring
  rw [e] at a2
  have j1 : j ≤ 1 := by
    have : (j : ℚ) < 2 := by linarith [a1.1, a2.2]
    have : j < 2 := by exact_mod_cast this
    omega
  have j2 : -1 ≤ j := by
    have : (-2 : ℚ) < j := by linarith [a1.2, a2.1]
    have : -2 < j := by exact_mod_cast this
    omega
  rcases (by omega : j = 0 ∨ j = 1 ∨ j = -1) with h | h | h
  · simp only [wrap]
    rw [e, h]; simp
  · rw [h] at a2 e
    push_cast at a2 e
    rw [half x (Or.inr (by linarith [a1.1, a2.2])), half (x + k) (Or.inl (by linarith [a1.1, a2.2]))]
  · rw [h] at a2 e
    push_cast at a2 e
    rw [half x (Or.inl (by linarith [a1.2, a2.1])), half (x + k) (Or.inr (by linarith [a1.2, a2.1]))]

/-! ## Candidates -/

/-- What is done to a coordinate to get candidate number `j`. -/
def place (tol : ℚ) (D : ℕ) (raws : List ℚ) (j : ℕ) (x : ℚ) : ℚ :=
  wrap tol D (wrap tol D x - average (raws.map (wrap tol D)) - average (center (raws.map (wrap tol D))) +
    j * (1 / raws.length))

theorem candidates_eq (tol : ℚ) (D : ℕ) (raws : List ℚ) :
    candidates tol D (center (raws.map (wrap tol D))) =
      (List.range raws.length).map fun (j : ℕ) => raws.map (place tol D raws j) := by
  simp only [candidates, center, List.length_map, List.map_map]
  apply List.map_congr_left
  intro j _
  apply List.map_congr_left
  intro x _
  simp only [place, center, List.map_map, Function.comp]

theorem candidates_ne (tol : ℚ) (D : ℕ) {raws : List ℚ} (h : raws ≠ []) :
    candidates tol D (center (raws.map (wrap tol D))) ≠ [] := by
  rw [candidates_eq]
  intro e
  have := congrArg List.length e
  simp at this
  exact h this

/-- The choice among the candidates. -/
theorem shifts_ok {tol : ℚ} (h0 : 0 < tol) (pos : List ℚ) (D : ℕ) (h : pos ≠ []) (hc : candidates tol D pos ≠ []) :
    ∃ best, leastRow ((candidates tol D pos).map sortRow) = some best ∧
      originShifts tol D pos = .ok ((candidates tol D pos).filter fun r =>
        (List.zipWith (fun a b => (a - b) ^ 2) (sortRow r) best).sum < tol ^ 2) ∧
      (candidates tol D pos).filter (fun r =>
        (List.zipWith (fun a b => (a - b) ^ 2) (sortRow r) best).sum < tol ^ 2) ≠ [] := by
  obtain ⟨best, hb, hm, _⟩ := leastRow_spec ((candidates tol D pos).map sortRow) (by simpa using hc)
  refine ⟨best, hb, ?_, ?_⟩
  · simp only [originShifts, if_neg h, bind, Except.bind, hb, orErr, pure, Except.pure]
  · obtain ⟨r, hr, rfl⟩ := List.mem_map.mp hm
    apply List.ne_nil_of_mem (a := r)
    rw [List.mem_filter]
    refine ⟨hr, ?_⟩
    have : ∀ l : List ℚ, (List.zipWith (fun a b => (a - b) ^ 2) l l).sum = 0 := by
      intro l
      induction l with
      | nil => rfl
      | cons a l ih => simp [ih]
    rw [this]
    simpa using pow_pos h0 2

theorem sortRow_perm {l l' : List ℚ} (h : l.Perm l') : sortRow l = sortRow l' := by
  apply List.Perm.eq_of_pairwise (le := (· ≤ ·))
  · intro a b _ _ h1 h2; exact le_antisymm h1 h2
  · exact List.pairwise_insertionSort _ _
  · exact List.pairwise_insertionSort _ _
  · exact ((List.perm_insertionSort _ l).trans h).trans (List.perm_insertionSort _ l').symm

theorem average_perm {l l' : List ℚ} (h : l.Perm l') : average l = average l' := by
  simp [average, h.sum_eq, h.length_eq]

theorem center_perm {l l' : List ℚ} (h : l.Perm l') : (center l).Perm (center l') := by
  simp only [center, average_perm h]
  exact h.map _

theorem place_perm (tol : ℚ) (D : ℕ) {raws raws' : List ℚ} (h : raws.Perm raws') : place tol D raws = place tol D raws' := by
  funext j x
  simp only [place, average_perm (h.map _), average_perm (center_perm (h.map (wrap tol D))), h.length_eq]

/-- Both orders of the atoms have the same candidates, each in its order. -/
theorem shifts_order {tol : ℚ} (h0 : 0 < tol) (D : ℕ) {raws raws' : List ℚ} (h : raws.Perm raws') (hne : raws ≠ []) :
    ∃ js : List ℕ, js ≠ [] ∧
      originShifts tol D (center (raws.map (wrap tol D))) = .ok (js.map fun j => raws.map (place tol D raws j)) ∧
      originShifts tol D (center (raws'.map (wrap tol D))) = .ok (js.map fun j => raws'.map (place tol D raws j)) := by
  have hne' : raws' ≠ [] := by
    rintro rfl; exact hne h.eq_nil
  have c1 := candidates_ne tol D hne
  have c2 := candidates_ne tol D hne'
  obtain ⟨b, e1, e2, e3⟩ := shifts_ok h0 (center (raws.map (wrap tol D))) D (by simpa [center] using hne) c1
  obtain ⟨b', f1, f2, f3⟩ := shifts_ok h0 (center (raws'.map (wrap tol D))) D (by simpa [center] using hne') c2
  rw [candidates_eq] at e1 e2 e3 f1 f2 f3
  rw [← place_perm tol D h, ← h.length_eq] at f1 f2 f3
  have hs : ∀ j, sortRow (raws.map (place tol D raws j)) = sortRow (raws'.map (place tol D raws j)) :=
    fun j => sortRow_perm (h.map _)
  have hb : b = b' := by
    rw [List.map_map] at e1 f1
    have : (sortRow ∘ fun j => raws.map (place tol D raws j)) = (sortRow ∘ fun j => raws'.map (place tol D raws j)) := by
      funext j; exact hs j
    rw [this, f1] at e1
    exact (Option.some.inj e1).symm
  subst hb
  rw [List.filter_map] at e2 e3 f2
  refine ⟨(List.range raws.length).filter ((fun r => decide ((List.zipWith (fun a b => (a - b) ^ 2) (sortRow r) b).sum < tol ^ 2)) ∘
    fun j => raws.map (place tol D raws j)), ?_, e2, ?_⟩
  · intro e; exact e3 (by rw [e]; rfl)
  · rw [f2]
    congr 2
    apply List.filter_congr
    intro j _
    simp only [Function.comp, hs j]

theorem average_center (l : List ℚ) : average (center l) = 0 := by
  by_cases h : l = []
  · subst h; simp [average, center]
  · have hl : (l.length : ℚ) ≠ 0 := by
      have := List.length_pos_iff.mpr h
      positivity
    have : (center l).sum = 0 := by
      simp only [center]
      have e : ∀ (m : List ℚ) (c : ℚ), (m.map fun x => x - c).sum = m.sum - m.length * c := by
        intro m c
        induction m with
        | nil => simp
        | cons a m ih => simp only [List.map_cons, List.sum_cons, ih, List.length_cons]; push_cast; ring
      rw [e, average]
      field_simp
      ring
    simp [average, this]

theorem range_rotate (n : ℕ) (K : ℤ) (hn : 0 < n) :
    ((List.range n).map fun (j : ℕ) => (((j : ℤ) - K) % n).toNat).Perm (List.range n) := by
  have hn' : (0 : ℤ) < n := by exact_mod_cast hn
  have inj : ∀ i ∈ List.range n, ∀ j ∈ List.range n, (((i : ℤ) - K) % n).toNat = (((j : ℤ) - K) % n).toNat → i = j := by
    intro i hi j hj h
    rw [List.mem_range] at hi hj
    have h1 := Int.emod_nonneg ((i : ℤ) - K) hn'.ne'
    have h2 := Int.emod_nonneg ((j : ℤ) - K) hn'.ne'
    have h3 : ((i : ℤ) - K) % n = ((j : ℤ) - K) % n := by omega
    have h4 : ((i : ℤ) - K - (j - K)) % n = 0 := Int.emod_eq_emod_iff_emod_sub_eq_zero.mp h3
    have h5 : (n : ℤ) ∣ (i : ℤ) - j := by
      have := Int.dvd_of_emod_eq_zero h4
      convert this using 1; ring
    have h6 := Int.eq_zero_of_abs_lt_dvd h5 (by rw [abs_lt]; constructor <;> omega)
    omega
  have nd : ((List.range n).map fun (j : ℕ) => (((j : ℤ) - K) % n).toNat).Nodup :=
    List.Nodup.map_on inj List.nodup_range
  have sub : ((List.range n).map fun (j : ℕ) => (((j : ℤ) - K) % n).toNat) ⊆ List.range n := by
    intro x hx
    obtain ⟨j, _, rfl⟩ := List.mem_map.mp hx
    rw [List.mem_range]
    have h1 := Int.emod_nonneg ((j : ℤ) - K) hn'.ne'
    have h2 := Int.emod_lt_of_pos ((j : ℤ) - K) hn'
    omega
  exact (List.subperm_of_subset nd sub).perm_of_length_le (by simp)

/-- Shifting all coordinates by one number gives the same candidates. -/
theorem candidates_shift {tol : ℚ} {D : ℕ} (hD : 1 ≤ D) (ht : tol ≤ 1 / 10 ^ D) (h0 : 0 < tol) (raws : List ℚ)
    (hr : ∀ x ∈ raws, HasDecimals D x) (t : ℚ) (htt : HasDecimals D t) :
    (candidates tol D (center ((raws.map (· + t)).map (wrap tol D)))).Perm
      (candidates tol D (center (raws.map (wrap tol D)))) := by
  by_cases hne : raws = []
  · subst hne; rfl
  have hn : 0 < raws.length := List.length_pos_iff.mpr hne
  have hnq : (raws.length : ℚ) ≠ 0 := by positivity
  have hk : ∀ x, ∃ k : ℤ, HasDecimals D x → wrap tol D (x + t) = wrap tol D x + t + k := by
    intro x
    by_cases hx : HasDecimals D x
    · obtain ⟨a, ha⟩ := wrap_grid hD ht h0 x hx
      have hxt : HasDecimals D (x + t) := by
        obtain ⟨i, rfl⟩ := hx
        obtain ⟨j, rfl⟩ := htt
        exact ⟨i + j, by push_cast; ring⟩
      obtain ⟨b, hb⟩ := wrap_grid hD ht h0 (x + t) hxt
      exact ⟨b - a, fun _ => by rw [ha, hb]; push_cast; ring⟩
    · exact ⟨0, fun h => absurd h hx⟩
  choose k hk using hk
  set K := (raws.map k).sum with hK
  have hav : average ((raws.map (· + t)).map (wrap tol D)) = average (raws.map (wrap tol D)) + t + K / raws.length := by
    have hsum : ((raws.map (· + t)).map (wrap tol D)).sum = (raws.map (wrap tol D)).sum + raws.length * t + K := by
      rw [hK]
      clear hK K hne hn hnq
      induction raws with
      | nil => simp
      | cons a l ih =>
        have := ih fun x hx => hr x (List.mem_cons_of_mem _ hx)
        simp only [List.map_cons, List.sum_cons, List.length_cons] at this ⊢
        rw [this, hk a (hr a (by simp))]
        push_cast; ring
    simp only [average, hsum, List.length_map]
    field_simp
  have hpl : ∀ x ∈ raws, ∀ j : ℕ, place tol D (raws.map (· + t)) j (x + t) =
      place tol D raws ((((j : ℤ) - K) % raws.length).toNat) x := by
    intro x hx j
    have hn' : (0 : ℤ) < raws.length := by exact_mod_cast hn
    have h1 := Int.emod_nonneg ((j : ℤ) - K) hn'.ne'
    have h2 : (((((j : ℤ) - K) % raws.length).toNat : ℕ) : ℚ) = (((j : ℤ) - K) % raws.length : ℤ) := by
      have : (((((j : ℤ) - K) % raws.length).toNat : ℕ) : ℤ) = ((j : ℤ) - K) % raws.length := Int.toNat_of_nonneg h1
      exact_mod_cast this
    have h3 : (j : ℚ) - K = raws.length * (((j : ℤ) - K) / raws.length : ℤ) + (((j : ℤ) - K) % raws.length : ℤ) := by
      have := Int.mul_ediv_add_emod ((j : ℤ) - K) raws.length
      exact_mod_cast this.symm
    simp only [place, average_center, hav, List.length_map, h2, hk x (hr x hx)]
    have e : wrap tol D x + t + (k x : ℚ) - (average (raws.map (wrap tol D)) + t + K / raws.length) - 0 + j * (1 / raws.length) =
        wrap tol D x - average (raws.map (wrap tol D)) - 0 + (((j : ℤ) - K) % raws.length : ℤ) * (1 / raws.length) +
          ((k x + ((j : ℤ) - K) / raws.length : ℤ) : ℚ) := by
      have h4 : (((j : ℤ) - K) % raws.length : ℤ) * (1 / (raws.length : ℚ)) = ((j : ℚ) - K) / raws.length -
          (((j : ℤ) - K) / raws.length : ℤ) := by
        rw [h3]; field_simp; ring
      rw [h4]
      push_cast
      ring
    rw [e, wrap_period hD ht h0]
  rw [candidates_eq, candidates_eq]
  have hrows : ((List.range (raws.map (· + t)).length).map fun (j : ℕ) => (raws.map (· + t)).map (place tol D (raws.map (· + t)) j)) =
      ((List.range raws.length).map fun (j : ℕ) => (((j : ℤ) - K) % raws.length).toNat).map fun j => raws.map (place tol D raws j) := by
    rw [List.length_map, List.map_map]
    apply List.map_congr_left
    intro j _
    simp only [Function.comp, List.map_map]
    apply List.map_congr_left
    intro x hx
    exact hpl x hx j
  rw [hrows]
  exact (range_rotate raws.length K hn).map _

theorem shifts_shift {tol : ℚ} {D : ℕ} (hD : 1 ≤ D) (ht : tol ≤ 1 / 10 ^ D) (h0 : 0 < tol) (raws : List ℚ)
    (hr : ∀ x ∈ raws, HasDecimals D x) (t : ℚ) (htt : HasDecimals D t) (hne : raws ≠ []) :
    ∃ L L' : List (List ℚ), L'.Perm L ∧ originShifts tol D (center (raws.map (wrap tol D))) = .ok L ∧
      originShifts tol D (center ((raws.map (· + t)).map (wrap tol D))) = .ok L' := by
  have hp := candidates_shift hD ht h0 raws hr t htt
  have hne' : raws.map (· + t) ≠ [] := by simpa using hne
  obtain ⟨b, e1, e2, e3⟩ := shifts_ok h0 (center (raws.map (wrap tol D))) D (by simpa [center] using hne)
    (candidates_ne tol D hne)
  obtain ⟨b', f1, f2, f3⟩ := shifts_ok h0 (center ((raws.map (· + t)).map (wrap tol D))) D (by simpa [center] using hne)
    (candidates_ne tol D hne')
  have hb : b' = b := by
    rw [leastRow_perm (hp.map sortRow), e1] at f1
    exact (Option.some.inj f1).symm
  subst hb
  exact ⟨_, _, hp.filter _, e2, f2⟩

/-! ## Blocks -/

theorem row_inj {a b : V3 ℚ} (h : row a = row b) : a = b := by
  obtain ⟨x, y, z⟩ := a
  obtain ⟨x', y', z'⟩ := b
  simp [row] at h
  simp [h]

theorem sortAtoms_perm {l l' : List (V3 ℚ)} (h : l.Perm l') :
    (l.insertionSort fun a b => row a ≤ row b) = l'.insertionSort fun a b => row a ≤ row b := by
  have ht : ∀ a b : V3 ℚ, row a ≤ row b ∨ row b ≤ row a := fun a b => le_total _ _
  have htr : ∀ a b c : V3 ℚ, row a ≤ row b → row b ≤ row c → row a ≤ row c := fun a b c => le_trans
  haveI : Std.Total fun a b : V3 ℚ => row a ≤ row b := ⟨ht⟩
  haveI : IsTrans (V3 ℚ) fun a b : V3 ℚ => row a ≤ row b := ⟨htr⟩
  apply List.Perm.eq_of_pairwise (le := fun a b : V3 ℚ => row a ≤ row b)
  · intro a b _ _ h1 h2; exact row_inj (le_antisymm h1 h2)
  · exact List.pairwise_insertionSort _ _
  · exact List.pairwise_insertionSort _ _
  · exact ((List.perm_insertionSort _ l).trans h).trans (List.perm_insertionSort _ l').symm

theorem sortBlocks_perm {ns : List ℕ} {l l' : List (V3 ℚ)} (h : BlockPerm ns l l') : sortBlocks ns l = sortBlocks ns l' := by
  induction h with
  | done l => rfl
  | block n ns l l' h t ih => simp only [sortBlocks, sortAtoms_perm h, ih]

theorem blockPerm_map {α β : Type} (f : α → β) {ns : List ℕ} {l l' : List α} (h : BlockPerm ns l l') :
    BlockPerm ns (l.map f) (l'.map f) := by
  induction h with
  | done l => exact .done _
  | block n ns l l' h t ih =>
    refine .block n ns _ _ ?_ ?_
    · rw [← List.map_take, ← List.map_take]; exact h.map f
    · rw [← List.map_drop, ← List.map_drop]; exact ih

theorem blockPerm_perm {α : Type} {ns : List ℕ} {l l' : List α} (h : BlockPerm ns l l') : l.Perm l' := by
  induction h with
  | done l => rfl
  | block n ns l l' h t ih =>
    rw [← List.take_append_drop n l, ← List.take_append_drop n l']
    exact h.append ih

/-- Sorting moves atoms within their blocks, and can be done before their coordinates are changed. -/
theorem sortBlocks_spec (f : V3 ℚ → V3 ℚ) (ns : List ℕ) (l : List (V3 ℚ)) :
    ∃ l', BlockPerm ns l l' ∧ sortBlocks ns (l.map f) = l'.map f := by
  induction ns generalizing l with
  | nil => exact ⟨l, .done l, rfl⟩
  | cons n ns ih =>
    obtain ⟨r, hr, e⟩ := ih (l.drop n)
    have hp := List.perm_insertionSort (fun a b => row a ≤ row b) ((l.take n).map f)
    obtain ⟨s, hs, hs'⟩ : ∃ s : List (V3 ℚ), s.Perm (l.take n) ∧
        s.map f = ((l.take n).map f).insertionSort fun a b => row a ≤ row b :=
      ⟨(l.take n).insertionSort fun a b => row (f a) ≤ row (f b), List.perm_insertionSort _ _,
        List.map_insertionSort _ _ f _ (fun _ _ _ _ => Iff.rfl)⟩
    refine ⟨s ++ r, ?_, ?_⟩
    · have hl : s.length = (l.take n).length := hs.length_eq
      by_cases hn : n ≤ l.length
      · have hsn : s.length = n := by rw [hl]; simp [hn]
        refine .block n ns _ _ ?_ ?_
        · rw [List.take_left' hsn]; exact hs.symm
        · rw [List.drop_left' hsn]; exact hr
      · have hd : l.drop n = [] := List.drop_eq_nil_of_le (by omega)
        have hrn : r = [] := by
          have := blockPerm_perm hr
          rw [hd] at this
          exact this.nil_eq.symm
        subst hrn
        rw [List.append_nil]
        refine .block n ns _ _ ?_ ?_
        · rw [List.take_of_length_le (l := s) (by rw [hl]; simp)]
          exact hs.symm
        · rw [show s.drop n = [] from List.drop_eq_nil_of_le (by rw [hl]; simp)]
          exact hr
    · simp only [sortBlocks, List.map_append, hs', ← List.map_take, ← List.map_drop, e]

theorem sortBlocks_length (ns : List ℕ) (l : List (V3 ℚ)) : (sortBlocks ns l).length = l.length := by
  obtain ⟨l', h, e⟩ := sortBlocks_spec id ns l
  rw [List.map_id] at e
  rw [e, List.map_id, (blockPerm_perm h).length_eq]

theorem zip3_map (f g h : ℚ → ℚ) (l : List (V3 ℚ)) :
    zip3 ((l.map V3.x).map f) ((l.map V3.y).map g) ((l.map V3.z).map h) = l.map fun v => ⟨f v.x, g v.y, h v.z⟩ := by
  induction l with
  | nil => rfl
  | cons a l ih =>
    simp only [zip3, List.map_cons, List.zip_cons_cons] at ih ⊢
    rw [ih]

theorem unflat_flat (l : List (V3 ℚ)) : unflat l.length (flat l) = l := by
  have h := zip3_map id id id l
  simp only [List.map_id_fun, id] at h
  unfold unflat flat
  rw [List.take_left' (by simp), List.drop_left' (by simp), List.take_left' (by simp),
    ← List.drop_drop, List.drop_left' (by simp), List.drop_left' (by simp), h]
  simp

/-! ## The results -/

/-- **C97.** No atoms: the number of atoms is divided by. -/
theorem C97_empty (tol : ℚ) (D : ℕ) (nAtoms : List ℕ) : normalize tol D [] nAtoms = .error .zeroDivision := by
  simp [normalize, originShifts, center, bind, Except.bind]

/-- **C97.** The order of the atoms of one kind does not matter. -/
theorem C97_order {tol : ℚ} (h0 : 0 < tol) (D : ℕ) (nAtoms : List ℕ) (atoms atoms' : List (V3 ℚ))
    (h : BlockPerm nAtoms atoms atoms') : normalize tol D atoms' nAtoms = normalize tol D atoms nAtoms := by
  have hp := blockPerm_perm h
  by_cases hne : atoms = []
  · subst hne; rw [hp.nil_eq]
  obtain ⟨jx, _, x1, x2⟩ := shifts_order h0 D (hp.map V3.x) (by simpa using hne)
  obtain ⟨jy, _, y1, y2⟩ := shifts_order h0 D (hp.map V3.y) (by simpa using hne)
  obtain ⟨jz, _, z1, z2⟩ := shifts_order h0 D (hp.map V3.z) (by simpa using hne)
  simp only [normalize, bind, Except.bind, x1, x2, y1, y2, z1, z2]
  have key : ∀ i j k, flat (sortBlocks nAtoms (zip3 ((atoms'.map V3.x).map (place tol D (atoms.map V3.x) i))
      ((atoms'.map V3.y).map (place tol D (atoms.map V3.y) j)) ((atoms'.map V3.z).map (place tol D (atoms.map V3.z) k)))) =
      flat (sortBlocks nAtoms (zip3 ((atoms.map V3.x).map (place tol D (atoms.map V3.x) i))
      ((atoms.map V3.y).map (place tol D (atoms.map V3.y) j)) ((atoms.map V3.z).map (place tol D (atoms.map V3.z) k)))) := by
    intro i j k
    rw [zip3_map, zip3_map, sortBlocks_perm (blockPerm_map _ h)]
  have e : (((jx.map fun j => (atoms'.map V3.x).map (place tol D (atoms.map V3.x) j)).flatMap fun a =>
        (jy.map fun j => (atoms'.map V3.y).map (place tol D (atoms.map V3.y) j)).flatMap fun b =>
        (jz.map fun j => (atoms'.map V3.z).map (place tol D (atoms.map V3.z) j)).map fun c =>
          flat (sortBlocks nAtoms (zip3 a b c)))) =
      ((jx.map fun j => (atoms.map V3.x).map (place tol D (atoms.map V3.x) j)).flatMap fun a =>
        (jy.map fun j => (atoms.map V3.y).map (place tol D (atoms.map V3.y) j)).flatMap fun b =>
        (jz.map fun j => (atoms.map V3.z).map (place tol D (atoms.map V3.z) j)).map fun c =>
          flat (sortBlocks nAtoms (zip3 a b c))) := by
    simp only [List.flatMap_map, List.map_map (l := jz), Function.comp_def (f := fun c => flat _)]
    simp only [key]
  rw [e, hp.length_eq]

/-- **C97.** The origin does not matter, for positions and shifts on the grid of the rounding. -/
theorem C97_shift {tol : ℚ} {D : ℕ} (hD : 1 ≤ D) (h0 : 0 < tol) (ht : tol ≤ 1 / 10 ^ D) (nAtoms : List ℕ)
    (atoms : List (V3 ℚ)) (t : V3 ℚ)
    (ha : ∀ v ∈ atoms, HasDecimals D v.x ∧ HasDecimals D v.y ∧ HasDecimals D v.z)
    (hs : HasDecimals D t.x ∧ HasDecimals D t.y ∧ HasDecimals D t.z) :
    normalize tol D (atoms.map fun v => ⟨v.x + t.x, v.y + t.y, v.z + t.z⟩) nAtoms = normalize tol D atoms nAtoms := by
  by_cases hne : atoms = []
  · subst hne; rfl
  obtain ⟨X, X', px, x1, x2⟩ := shifts_shift hD ht h0 (atoms.map V3.x)
    (by intro x hx; obtain ⟨v, hv, rfl⟩ := List.mem_map.mp hx; exact (ha v hv).1) t.x hs.1 (by simpa using hne)
  obtain ⟨Y, Y', py, y1, y2⟩ := shifts_shift hD ht h0 (atoms.map V3.y)
    (by intro x hx; obtain ⟨v, hv, rfl⟩ := List.mem_map.mp hx; exact (ha v hv).2.1) t.y hs.2.1 (by simpa using hne)
  obtain ⟨Z, Z', pz, z1, z2⟩ := shifts_shift hD ht h0 (atoms.map V3.z)
    (by intro x hx; obtain ⟨v, hv, rfl⟩ := List.mem_map.mp hx; exact (ha v hv).2.2) t.z hs.2.2 (by simpa using hne)
  have ex : (atoms.map fun v => (⟨v.x + t.x, v.y + t.y, v.z + t.z⟩ : V3 ℚ)).map V3.x = (atoms.map V3.x).map (· + t.x) := by
    simp [List.map_map, Function.comp_def]
  have ey : (atoms.map fun v => (⟨v.x + t.x, v.y + t.y, v.z + t.z⟩ : V3 ℚ)).map V3.y = (atoms.map V3.y).map (· + t.y) := by
    simp [List.map_map, Function.comp_def]
  have ez : (atoms.map fun v => (⟨v.x + t.x, v.y + t.y, v.z + t.z⟩ : V3 ℚ)).map V3.z = (atoms.map V3.z).map (· + t.z) := by
    simp [List.map_map, Function.comp_def]
  simp only [normalize, ex, ey, ez, bind, Except.bind, x1, x2, y1, y2, z1, z2]
  have hp : (X'.flatMap fun a => Y'.flatMap fun b => Z'.map fun c => flat (sortBlocks nAtoms (zip3 a b c))).Perm
      (X.flatMap fun a => Y.flatMap fun b => Z.map fun c => flat (sortBlocks nAtoms (zip3 a b c))) := by
    refine (px.flatMap_right _).trans ?_
    apply List.Perm.flatMap_left
    intro a _
    refine (py.flatMap_right _).trans ?_
    apply List.Perm.flatMap_left
    intro b _
    exact pz.map _
  rw [leastRow_perm hp, List.length_map]

theorem place_near {tol : ℚ} {D : ℕ} (hD : 1 ≤ D) (h0 : 0 < tol) (ht : tol ≤ 1 / 10 ^ D) (raws : List ℚ) (j : ℕ) :
    ∃ t : ℚ, ∀ x, NearMod1 (1 / 10 ^ D) (x + t) (place tol D raws j x) := by
  refine ⟨-average (raws.map (wrap tol D)) - average (center (raws.map (wrap tol D))) + j * (1 / raws.length), ?_⟩
  intro x
  obtain ⟨k, hk⟩ := wrap_near hD ht h0 x
  obtain ⟨m, hm⟩ := wrap_near hD ht h0 (wrap tol D x - average (raws.map (wrap tol D)) -
    average (center (raws.map (wrap tol D))) + j * (1 / raws.length))
  refine ⟨k + m, ?_⟩
  have e : (1 : ℚ) / 10 ^ D = 1 / (2 * 10 ^ D) + 1 / (2 * 10 ^ D) := by
    have := pow_pos' D
    field_simp
    norm_num
  rw [e]
  refine le_trans (le_of_eq ?_) (le_trans (abs_add_le _ _) (add_le_add hk hm))
  congr 1
  simp only [place]
  push_cast
  ring

/-- **C97.** The result is the given structure: the atoms reordered within their kinds, under one common shift, up to
integers and the rounding, in the cell around the origin. -/
theorem C97_sound {tol : ℚ} {D : ℕ} (hD : 1 ≤ D) (h0 : 0 < tol) (ht : tol ≤ 1 / 10 ^ D) (nAtoms : List ℕ)
    (atoms : List (V3 ℚ)) (hne : atoms ≠ []) :
    ∃ (r sorted : List (V3 ℚ)) (t : V3 ℚ), normalize tol D atoms nAtoms = .ok r ∧ BlockPerm nAtoms atoms sorted ∧
      List.Forall₂ (fun v w => NearMod1 (1 / 10 ^ D) (v.x + t.x) w.x ∧ NearMod1 (1 / 10 ^ D) (v.y + t.y) w.y ∧
        NearMod1 (1 / 10 ^ D) (v.z + t.z) w.z) sorted r ∧
      ∀ w ∈ r, (-1 / 2 ≤ w.x ∧ w.x < 1 / 2) ∧ (-1 / 2 ≤ w.y ∧ w.y < 1 / 2) ∧ (-1 / 2 ≤ w.z ∧ w.z < 1 / 2) := by
  obtain ⟨jx, nx, x1, -⟩ := shifts_order h0 D (List.Perm.refl (atoms.map V3.x)) (by simpa using hne)
  obtain ⟨jy, ny, y1, -⟩ := shifts_order h0 D (List.Perm.refl (atoms.map V3.y)) (by simpa using hne)
  obtain ⟨jz, nz, z1, -⟩ := shifts_order h0 D (List.Perm.refl (atoms.map V3.z)) (by simpa using hne)
  simp only [normalize, bind, Except.bind, x1, y1, z1]
  set C := ((jx.map fun j => (atoms.map V3.x).map (place tol D (atoms.map V3.x) j)).flatMap fun a =>
    (jy.map fun j => (atoms.map V3.y).map (place tol D (atoms.map V3.y) j)).flatMap fun b =>
    (jz.map fun j => (atoms.map V3.z).map (place tol D (atoms.map V3.z) j)).map fun c =>
      flat (sortBlocks nAtoms (zip3 a b c))) with hC
  obtain ⟨i, hi⟩ := List.exists_mem_of_ne_nil _ nx
  obtain ⟨j, hj⟩ := List.exists_mem_of_ne_nil _ ny
  obtain ⟨k, hk⟩ := List.exists_mem_of_ne_nil _ nz
  have hCne : C ≠ [] := by
    apply List.ne_nil_of_mem (a := flat (sortBlocks nAtoms (zip3 ((atoms.map V3.x).map (place tol D (atoms.map V3.x) i))
      ((atoms.map V3.y).map (place tol D (atoms.map V3.y) j)) ((atoms.map V3.z).map (place tol D (atoms.map V3.z) k)))))
    rw [hC, List.mem_flatMap]
    refine ⟨_, List.mem_map_of_mem hi, ?_⟩
    rw [List.mem_flatMap]
    exact ⟨_, List.mem_map_of_mem hj, List.mem_map_of_mem (List.mem_map_of_mem hk)⟩
  obtain ⟨best, hb, hm, -⟩ := leastRow_spec C hCne
  rw [hb]
  rw [hC, List.mem_flatMap] at hm
  obtain ⟨a, ha, hm⟩ := hm
  obtain ⟨i', -, rfl⟩ := List.mem_map.mp ha
  rw [List.mem_flatMap] at hm
  obtain ⟨b, hb', hm⟩ := hm
  obtain ⟨j', -, rfl⟩ := List.mem_map.mp hb'
  obtain ⟨c, hc, rfl⟩ := List.mem_map.mp hm
  obtain ⟨k', -, rfl⟩ := List.mem_map.mp hc
  rw [zip3_map]
  obtain ⟨l, hl, e⟩ := sortBlocks_spec (fun v => ⟨place tol D (atoms.map V3.x) i' v.x, place tol D (atoms.map V3.y) j' v.y,
    place tol D (atoms.map V3.z) k' v.z⟩) nAtoms atoms
  obtain ⟨tx, htx⟩ := place_near hD h0 ht (atoms.map V3.x) i'
  obtain ⟨ty, hty⟩ := place_near hD h0 ht (atoms.map V3.y) j'
  obtain ⟨tz, htz⟩ := place_near hD h0 ht (atoms.map V3.z) k'
  rw [e]
  refine ⟨l.map fun v => ⟨place tol D (atoms.map V3.x) i' v.x, place tol D (atoms.map V3.y) j' v.y,
    place tol D (atoms.map V3.z) k' v.z⟩, l, ⟨tx, ty, tz⟩, ?_, hl, ?_, ?_⟩
  · simp only [orErr, pure, Except.pure]
    rw [show atoms.length = (l.map fun v => (⟨place tol D (atoms.map V3.x) i' v.x, place tol D (atoms.map V3.y) j' v.y,
      place tol D (atoms.map V3.z) k' v.z⟩ : V3 ℚ)).length by rw [List.length_map, (blockPerm_perm hl).length_eq], unflat_flat]
  · rw [List.forall₂_map_right_iff, List.forall₂_same]
    intro v _
    exact ⟨htx _, hty _, htz _⟩
  · intro w hw
    obtain ⟨v, -, rfl⟩ := List.mem_map.mp hw
    exact ⟨wrap_range hD ht h0 _, wrap_range hD ht h0 _, wrap_range hD ht h0 _⟩

theorem forall₂_join {α β : Type} {R S : α → β → Prop} {T : α → α → Prop} (h : ∀ a a' b, R a b → S a' b → T a a')
    {l l' : List α} {r : List β} (h1 : List.Forall₂ R l r) (h2 : List.Forall₂ S l' r) : List.Forall₂ T l l' := by
  induction h1 generalizing l' with
  | nil => cases h2; exact .nil
  | cons a _ ih => cases h2 with
    | cons b t => exact .cons (h _ _ _ a b) (ih t)

theorem near_join {D : ℕ} {x y w s t : ℚ} (h1 : NearMod1 (1 / 10 ^ D) (x + s) w) (h2 : NearMod1 (1 / 10 ^ D) (y + t) w) :
    NearMod1 (2 / 10 ^ D) (x + (s - t)) y := by
  obtain ⟨k, hk⟩ := h1
  obtain ⟨m, hm⟩ := h2
  refine ⟨k - m, ?_⟩
  rw [show (2 : ℚ) / 10 ^ D = 1 / 10 ^ D + 1 / 10 ^ D by ring]
  rw [abs_sub_comm] at hm
  refine le_trans (le_of_eq ?_) (le_trans (abs_add_le _ _) (add_le_add hk hm))
  congr 1
  push_cast
  ring

/-- **C97.** Structures with the same result are the same structure: atom by atom, after reordering within the kinds,
they differ by one common shift, integers and the rounding. -/
theorem C97_match {tol : ℚ} {D : ℕ} (hD : 1 ≤ D) (h0 : 0 < tol) (ht : tol ≤ 1 / 10 ^ D) (nAtoms : List ℕ)
    (atoms atoms' : List (V3 ℚ)) (hne : atoms ≠ []) (h : normalize tol D atoms nAtoms = normalize tol D atoms' nAtoms) :
    ∃ (l l' : List (V3 ℚ)) (t : V3 ℚ), BlockPerm nAtoms atoms l ∧ BlockPerm nAtoms atoms' l' ∧
      List.Forall₂ (fun v w => NearMod1 (2 / 10 ^ D) (v.x + t.x) w.x ∧ NearMod1 (2 / 10 ^ D) (v.y + t.y) w.y ∧
        NearMod1 (2 / 10 ^ D) (v.z + t.z) w.z) l l' := by
  obtain ⟨r, l, t, e, hb, hf, -⟩ := C97_sound hD h0 ht nAtoms atoms hne
  have hne' : atoms' ≠ [] := by
    rintro rfl
    rw [e, C97_empty] at h
    cases h
  obtain ⟨r', l', t', e', hb', hf', -⟩ := C97_sound hD h0 ht nAtoms atoms' hne'
  rw [e, e'] at h
  obtain rfl := Except.ok.inj h
  refine ⟨l, l', ⟨t.x - t'.x, t.y - t'.y, t.z - t'.z⟩, hb, hb', forall₂_join ?_ hf hf'⟩
  intro a a' b h1 h2
  exact ⟨near_join h1.1 h2.1, near_join h1.2.1 h2.2.1, near_join h1.2.2 h2.2.2⟩

/-- **C97, violation.** The choice is made after the rounding: a shift of three millionths along the first axis moves
the atoms of the result by half a cell. -/
theorem C97_jump_violation :
    normalize (1 / 10 ^ 5) 5 [⟨0, 0, 0⟩, ⟨499985 / 10 ^ 6, 0, 0⟩] [1, 1] =
        .ok [⟨25001 / 10 ^ 5, -1 / 2, -1 / 2⟩, ⟨-25001 / 10 ^ 5, -1 / 2, -1 / 2⟩] ∧
      normalize (1 / 10 ^ 5) 5 [⟨3 / 10 ^ 6, 0, 0⟩, ⟨499988 / 10 ^ 6, 0, 0⟩] [1, 1] =
        .ok [⟨-1 / 4, -1 / 2, -1 / 2⟩, ⟨1 / 4, -1 / 2, -1 / 2⟩] := by
  decide +kernel

/-- Three atoms of two kinds, and their order within the first kind. -/
example : BlockPerm [2, 1] [(⟨0, 0, 0⟩ : V3 ℚ), ⟨1 / 4, 1 / 2, 0⟩, ⟨1 / 10, 0, 0⟩]
    [⟨1 / 4, 1 / 2, 0⟩, ⟨0, 0, 0⟩, ⟨1 / 10, 0, 0⟩] :=
  .block _ _ _ _ (List.Perm.swap _ _ _) (.block _ _ _ _ (List.Perm.refl _) (.done _))

/-- Numbers with five decimals. -/
example : HasDecimals 5 (1 / 4) ∧ HasDecimals 5 (-12345 / 100000) :=
  ⟨⟨25000, by norm_num⟩, ⟨-12345, by norm_num⟩⟩

/-- Two copies of a structure with another origin and another order of the atoms. -/
example : normalize (1 / 10 ^ 5) 5 [⟨0, 0, 0⟩, ⟨1 / 4, 1 / 2, 0⟩, ⟨1 / 10, 0, 0⟩] [2, 1] =
    normalize (1 / 10 ^ 5) 5 [⟨7 / 20, 4 / 5, 1 / 2⟩, ⟨1 / 10, 3 / 10, 1 / 2⟩, ⟨1 / 5, 3 / 10, 1 / 2⟩] [2, 1] := by
  decide +kernel

end Verif.Matcher
