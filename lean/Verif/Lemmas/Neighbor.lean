import Verif.Model.Neighbor
import Mathlib.Data.List.Induction
import Mathlib.Algebra.BigOperators.Group.List.Lemmas

/-! # Lemmas on compressed rows and on the scatter loop -/

namespace Verif.Neighbor

theorem scanl_getElem? (l : List ℕ) : ∀ (a i : ℕ), i ≤ l.length →
    (l.scanl (· + ·) a)[i]? = some (a + (l.take i).sum) := by
  induction l with
  | nil => intro a i h; have : i = 0 := by simpa using h
           subst this; simp
  | cons x l ih =>
      intro a i h
      cases i with
      | zero => simp
      | succ i =>
          rw [List.scanl_cons, List.getElem?_cons_succ, ih (a + x) i (by simpa using h)]
          simp [Nat.add_assoc]

theorem mkCsr_off {E : Type} (rows : List (List E)) (i : ℕ) (h : i ≤ rows.length) :
    (mkCsr rows).off i = ((rows.map List.length).take i).sum := by
  have := scanl_getElem? (rows.map List.length) 0 i (by simpa using h)
  simp [mkCsr, Csr.off, List.getD_eq_getElem?_getD, this]

theorem take_sum_succ (l : List ℕ) (i : ℕ) (h : i < l.length) :
    (l.take (i + 1)).sum = (l.take i).sum + l[i] := by
  rw [List.take_add_one, List.getElem?_eq_getElem h, List.sum_append]
  simp only [Option.toList_some, List.sum_singleton]

theorem mkCsr_size {E : Type} (rows : List (List E)) (i : ℕ) (h : i < rows.length) :
    (mkCsr rows).size i = rows[i].length := by
  rw [Csr.size, mkCsr_off _ _ h, mkCsr_off _ _ (le_of_lt h),
    take_sum_succ _ _ (by simpa using h)]
  simp

theorem mkCsr_row {E : Type} (rows : List (List E)) (i : ℕ) (h : i < rows.length) :
    (mkCsr rows).row i = rows[i] := by
  rw [Csr.row, mkCsr_size _ _ h, mkCsr_off _ _ (le_of_lt h)]
  show ((rows.flatten).drop _).take _ = _
  rw [← List.map_take, ← List.length_flatten]
  have hf : rows.flatten = (rows.take i).flatten ++ (rows[i] ++ (rows.drop (i + 1)).flatten) := by
    rw [← List.flatten_cons, ← List.drop_eq_getElem_cons h, ← List.flatten_append,
      List.take_append_drop]
  rw [hf, List.drop_left, List.take_left]

theorem range_map_getD {E : Type} (l : List E) (a s : ℕ) (d : E) (h : a + s ≤ l.length) :
    (List.range' a s).map (fun k => l.getD k d) = (l.drop a).take s := by
  apply List.ext_getElem
  · simp; omega
  · intro i h1 h2
    simp at h1
    simp [List.getD_eq_getElem?_getD, List.getElem?_eq_getElem (show a + i < l.length by omega)]

theorem mkCsr_off_le {E : Type} (rows : List (List E)) (i : ℕ) (h : i < rows.length) :
    (mkCsr rows).off i + (mkCsr rows).size i ≤ (mkCsr rows).entries.length := by
  rw [mkCsr_size _ _ h, mkCsr_off _ _ (le_of_lt h)]
  have : rows[i].length = (rows.map List.length)[i]'(by simpa using h) := by simp
  rw [this, ← take_sum_succ _ _ (by simpa using h)]
  show _ ≤ rows.flatten.length
  rw [List.length_flatten]
  conv_rhs => rw [← List.take_append_drop (i + 1) (rows.map List.length)]
  rw [List.sum_append]; omega

theorem mkCsr_range {E : Type} (rows : List (List E)) (i : ℕ) (h : i < rows.length) (d : E) :
    ((mkCsr rows).range i).map (fun k => (mkCsr rows).entries.getD k d) = rows[i] := by
  rw [Csr.range, range_map_getD _ _ _ _ (mkCsr_off_le rows i h)]
  exact mkCsr_row rows i h

/-! ### Scatter by target -/

/-- Writes in order, each to the next free place of its target. -/
def scatter {E : Type} (st : List ℕ × List E) (ev : List (ℕ × E)) : List ℕ × List E :=
  ev.foldl (fun st e => put st e.1 e.2) st

/-- Number of events for targets below `t`. -/
def below {E : Type} (ev : List (ℕ × E)) (t : ℕ) : ℕ := ev.countP (fun e => e.1 < t)

/-- Number of events for target `t`. -/
def cnt {E : Type} (ev : List (ℕ × E)) (t : ℕ) : ℕ := ev.countP (fun e => e.1 = t)

/-- Entries for target `t`, in order. -/
def bucket {E : Type} (ev : List (ℕ × E)) (t : ℕ) : List E :=
  (ev.filter (fun e => e.1 = t)).map Prod.snd

theorem bucket_length {E : Type} (ev : List (ℕ × E)) (t : ℕ) :
    (bucket ev t).length = cnt ev t := by
  simp [bucket, cnt, List.countP_eq_length_filter]

theorem below_succ {E : Type} (ev : List (ℕ × E)) (t : ℕ) :
    below ev (t + 1) = below ev t + cnt ev t := by
  induction ev with
  | nil => rfl
  | cons e ev ih =>
      simp only [below, cnt, List.countP_cons] at ih ⊢
      rcases lt_trichotomy e.1 t with h | h | h
      · simp [h, Nat.lt_succ_of_lt h, ne_of_lt h]; omega
      · subst h; simp; omega
      · simp [not_lt.mpr (le_of_lt h), (ne_of_lt h).symm, show ¬ e.1 < t + 1 by omega]; omega

theorem below_mono {E : Type} (ev : List (ℕ × E)) {s t : ℕ} (h : s ≤ t) :
    below ev s ≤ below ev t := by
  induction h with
  | refl => exact le_rfl
  | step _ ih => exact ih.trans (by rw [below_succ]; omega)

theorem below_le {E : Type} (ev : List (ℕ × E)) (t : ℕ) : below ev t ≤ ev.length :=
  List.countP_le_length

theorem cnt_append {E : Type} (a b : List (ℕ × E)) (t : ℕ) :
    cnt (a ++ b) t = cnt a t + cnt b t := by simp [cnt]

/-- State after the events `p` of `ev`. -/
structure ScInv {E : Type} (n : ℕ) (ev p : List (ℕ × E)) (st : List ℕ × List E) : Prop where
  plen : n ≤ st.1.length
  pos : ∀ t < n, st.1[t]? = some (below ev t + cnt p t)
  len : st.2.length = below ev n
  val : ∀ t < n, ∀ r x, (bucket p t)[r]? = some x → st.2[below ev t + r]? = some x

theorem scatter_inv {E : Type} (n : ℕ) (ev : List (ℕ × E)) (ht : ∀ e ∈ ev, e.1 < n)
    (st0 : List ℕ × List E) (h0 : ScInv n ev [] st0) :
    ∀ p q, ev = p ++ q → ScInv n ev p (scatter st0 p) := by
  intro p
  induction p using List.reverseRecOn with
  | nil => intro q _; exact h0
  | append_singleton p e ih =>
      intro q hq
      have hI := ih (e :: q) (by simpa using hq)
      have hen : e.1 < n := ht e (by rw [hq]; simp)
      have hs : scatter st0 (p ++ [e]) = put (scatter st0 p) e.1 e.2 := by
        simp [scatter]
      rw [hs]
      set st := scatter st0 p with hst
      have hpos := hI.pos e.1 hen
      have hgd : st.1.getD e.1 0 = below ev e.1 + cnt p e.1 := by
        simp [List.getD_eq_getElem?_getD, hpos]
      have hcnt : cnt p e.1 < cnt ev e.1 := by
        rw [hq, cnt_append, cnt_append]
        have : cnt [e] e.1 = 1 := by simp [cnt]
        omega
      have hidx : below ev e.1 + cnt p e.1 < st.2.length := by
        rw [hI.len]
        have h1 := below_succ ev e.1
        have h2 := below_mono ev (show e.1 + 1 ≤ n from hen)
        omega
      refine ⟨?_, ?_, ?_, ?_⟩
      · simpa [put] using hI.plen
      · intro t htn
        simp only [put, List.getElem?_modify]
        by_cases hte : e.1 = t
        · subst hte; rw [hpos, cnt_append]; simp [cnt]; omega
        · rw [hI.pos t htn, cnt_append]
          simp [hte, cnt]
      · simpa [put] using hI.len
      · intro t htn r x hx
        simp only [put, hgd]
        rw [List.getElem?_set]
        have hbk : bucket (p ++ [e]) t = bucket p t ++ bucket [e] t := by simp [bucket]
        rw [hbk] at hx
        by_cases hte : e.1 = t
        · subst hte
          have hb1 : bucket [e] e.1 = [e.2] := by simp [bucket]
          rw [hb1] at hx
          by_cases hr : r < (bucket p e.1).length
          · rw [List.getElem?_append_left hr] at hx
            rw [bucket_length] at hr
            rw [if_neg (by omega)]
            exact hI.val _ hen _ _ hx
          · have hre : r = (bucket p e.1).length := by
              by_contra hne
              rw [List.getElem?_eq_none (by simp; omega)] at hx
              cases hx
            subst hre
            rw [List.getElem?_append_right le_rfl] at hx
            simp at hx
            rw [bucket_length]
            simp [hx]
            omega
        · have hb1 : bucket [e] t = [] := by simp [bucket, hte]
          rw [hb1, List.append_nil] at hx
          have hrl : r < cnt p t := by
            rw [← bucket_length]
            by_contra hc
            rw [List.getElem?_eq_none (by omega)] at hx
            cases hx
          have hpt : cnt p t ≤ cnt ev t := by rw [hq, cnt_append, cnt_append]; omega
          have hne : ¬ (below ev e.1 + cnt p e.1 = below ev t + r) := by
            have h1 := below_succ ev e.1
            have h2 := below_succ ev t
            rcases Nat.lt_or_gt_of_ne hte with hlt | hgt
            · have := below_mono ev (show e.1 + 1 ≤ t from hlt)
              omega
            · have := below_mono ev (show t + 1 ≤ e.1 from hgt)
              omega
          rw [if_neg hne]
          exact hI.val _ htn _ _ hx

/-- After all writes the slice of every target holds its entries in order. -/
theorem scatter_slice {E : Type} (n : ℕ) (ev : List (ℕ × E)) (ht : ∀ e ∈ ev, e.1 < n)
    (st0 : List ℕ × List E) (h0 : ScInv n ev [] st0) (t : ℕ) (htn : t < n) :
    (((scatter st0 ev).2.drop (below ev t)).take (cnt ev t)) = bucket ev t := by
  have hI := scatter_inv n ev ht st0 h0 ev [] (by simp)
  have h1 := below_succ ev t
  have h2 := below_mono ev (show t + 1 ≤ n from htn)
  apply List.ext_getElem?
  intro r
  by_cases hr : r < cnt ev t
  · have hb : r < (bucket ev t).length := by rw [bucket_length]; exact hr
    rw [List.getElem?_take_of_lt hr, List.getElem?_drop, List.getElem?_eq_getElem hb]
    exact hI.val t htn r _ (List.getElem?_eq_getElem hb)
  · rw [List.getElem?_eq_none (by simp; omega),
      List.getElem?_eq_none (by rw [bucket_length]; omega)]

/-! ### The counting loop -/

theorem modify_all_getElem? (js : List ℕ) : ∀ (d : List ℕ) (t : ℕ),
    (js.foldl (fun d j => d.modify j (· + 1)) d)[t]? = d[t]?.map (· + js.count t) := by
  induction js with
  | nil => intro d t; cases h : d[t]? <;> simp [h]
  | cons j js ih =>
      intro d t
      rw [List.foldl_cons, ih, List.getElem?_modify, List.count_cons]
      by_cases h : j = t
      · subst h; cases hd : d[j]? <;> simp; omega
      · cases hd : d[t]? <;> simp [h]

theorem modify_all_length (js : List ℕ) : ∀ (d : List ℕ),
    (js.foldl (fun d j => d.modify j (· + 1)) d).length = d.length := by
  induction js with
  | nil => intro d; rfl
  | cons j js ih => intro d; rw [List.foldl_cons, ih, List.length_modify]

end Verif.Neighbor
