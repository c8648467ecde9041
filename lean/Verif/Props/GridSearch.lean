import Verif.Spec.GridSearch
import Verif.Props.Infile
import Mathlib.Tactic.Linarith
import Mathlib.Tactic.NormNum
import Mathlib.Data.List.Nodup
import Mathlib.Data.List.Infix

/-!
# C83: the grid of models
-/

namespace Verif.GridSearch
open Verif.Spec.GridSearch
open Verif.Infile (PStr Parsed Value)

/-! ## Rounding -/

theorem rint_nearest (x : ℚ) : NearestEven (rint x) x := by
  have h1 := Int.floor_le x
  have h2 := Int.lt_floor_add_one x
  unfold rint
  by_cases ha : x - ⌊x⌋ < 1 / 2
  · rw [if_pos ha]
    refine ⟨by rw [abs_le]; constructor <;> linarith, fun h => ?_⟩
    rw [abs_of_nonneg (by linarith)] at h; linarith
  · rw [if_neg ha]
    by_cases hb : 1 / 2 < x - ⌊x⌋
    · rw [if_pos hb]
      refine ⟨by rw [abs_le]; push_cast; constructor <;> linarith, fun h => ?_⟩
      push_cast at h
      rw [abs_of_nonpos (by linarith)] at h; linarith
    · rw [if_neg hb]
      have e : x - ⌊x⌋ = 1 / 2 := le_antisymm (not_lt.1 hb) (not_lt.1 ha)
      by_cases hc : ⌊x⌋ % 2 = 0
      · rw [if_pos hc]
        exact ⟨by rw [e]; norm_num, fun _ => Int.even_iff.2 hc⟩
      · rw [if_neg hc]
        refine ⟨?_, fun _ => Int.even_iff.2 (by omega)⟩
        push_cast
        rw [show x - (⌊x⌋ + 1) = -(1 / 2) by linarith]; norm_num

theorem nearest_unique {x : ℚ} {k l : ℤ} (hk : NearestEven k x) (hl : NearestEven l x) : k = l := by
  obtain ⟨k1, k2⟩ := hk
  obtain ⟨l1, l2⟩ := hl
  have a := abs_le.1 k1
  have b := abs_le.1 l1
  rcases lt_trichotomy k l with h | h | h
  · have hq : (k : ℚ) + 1 ≤ l := by exact_mod_cast h
    have e1 : x - k = 1 / 2 := by linarith [a.1, a.2, b.1, b.2]
    have e2 : x - l = -(1 / 2) := by linarith [a.1, a.2, b.1, b.2]
    have m1 := k2 (by rw [e1]; norm_num)
    have m2 := l2 (by rw [e2]; norm_num)
    have e3 : (l : ℚ) = k + 1 := by linarith
    have e4 : l = k + 1 := by exact_mod_cast e3
    rw [Int.even_iff] at m1 m2
    omega
  · exact h
  · have hq : (l : ℚ) + 1 ≤ k := by exact_mod_cast h
    have e1 : x - l = 1 / 2 := by linarith [a.1, a.2, b.1, b.2]
    have e2 : x - k = -(1 / 2) := by linarith [a.1, a.2, b.1, b.2]
    have m1 := l2 (by rw [e1]; norm_num)
    have m2 := k2 (by rw [e2]; norm_num)
    have e3 : (k : ℚ) = l + 1 := by linarith
    have e4 : k = l + 1 := by exact_mod_cast e3
    rw [Int.even_iff] at m1 m2
    omega

theorem nearest_iff {x : ℚ} {k : ℤ} : NearestEven k x ↔ k = rint x :=
  ⟨fun h => nearest_unique h (rint_nearest x), fun h => h ▸ rint_nearest x⟩

/-! ## Lists of settings -/

theorem product_mem (ls : List (List ℕ)) (t : List ℕ) :
    t ∈ product ls ↔ List.Forall₂ (fun (a : ℕ) l => a ∈ l) t ls := by
  induction ls generalizing t with
  | nil => simp [product]
  | cons l ls ih =>
    unfold product
    simp only [List.mem_flatMap, List.mem_map]
    constructor
    · rintro ⟨a, ha, u, hu, rfl⟩
      exact .cons ha ((ih u).1 hu)
    · intro h
      cases h with
      | cons h1 h2 => exact ⟨_, h1, _, (ih _).2 h2, rfl⟩

theorem product_nodup (ls : List (List ℕ)) (h : ∀ l ∈ ls, l.Nodup) : (product ls).Nodup := by
  induction ls with
  | nil => simp [product]
  | cons l ls ih =>
    have ih' := ih fun x hx => h x (by simp [hx])
    unfold product
    rw [List.nodup_flatMap]
    refine ⟨fun a _ => ih'.map fun x y e => by simpa using e, ?_⟩
    refine (h l (by simp)).imp ?_
    intro a b hab
    rw [Function.onFun, List.disjoint_left]
    intro x hx hy
    rw [List.mem_map] at hx hy
    obtain ⟨u, _, rfl⟩ := hx
    obtain ⟨v, _, e⟩ := hy
    simp only [List.cons.injEq] at e
    exact hab e.1.symm

theorem nonIncreasing_iff (l : List ℕ) : nonIncreasing l = true ↔ l.Pairwise (· ≥ ·) := by
  rw [← List.isChain_iff_pairwise]
  induction l with
  | nil => simp [nonIncreasing]
  | cons a l ih =>
    cases l with
    | nil => simp [nonIncreasing]
    | cons b l =>
      rw [List.isChain_cons_cons, ← ih]
      simp [nonIncreasing]

theorem maxlRange_ok {d u : ℕ} {l : List ℕ} (h : maxlRange d u = .ok l) :
    0 < d ∧ l.Nodup ∧ ∀ x, x ∈ l ↔ ∃ k, 1 ≤ k ∧ x = k * d ∧ x ≤ u := by
  unfold maxlRange at h
  split at h
  · cases h
  · rename_i hd
    cases h
    have hd' : 0 < d := Nat.pos_of_ne_zero hd
    refine ⟨hd', ?_, fun x => ?_⟩
    · refine List.nodup_range.map fun a b e => ?_
      have := Nat.eq_of_mul_eq_mul_right hd' e
      omega
    · simp only [List.mem_map, List.mem_range]
      constructor
      · rintro ⟨k, hk, rfl⟩
        refine ⟨k + 1, by omega, rfl, ?_⟩
        exact (Nat.le_div_iff_mul_le hd').1 hk
      · rintro ⟨k, hk, rfl, hu⟩
        refine ⟨k - 1, ?_, by rw [Nat.sub_add_cancel hk]⟩
        have := (Nat.le_div_iff_mul_le hd').2 hu
        omega

theorem maxlAt_ok {ds us : List ℕ} {i : ℕ} {l : List ℕ} (h : maxlAt ds us i = .ok l) :
    ∃ d u, ds[i]? = some d ∧ us[i]? = some u ∧ 0 < d ∧ l.Nodup ∧
      ∀ x, x ∈ l ↔ ∃ k, 1 ≤ k ∧ x = k * d ∧ x ≤ u := by
  unfold maxlAt at h
  cases hd : ds[i]? with
  | none => rw [hd] at h; simp [orErr, bind, Except.bind] at h
  | some d =>
    cases hu : us[i]? with
    | none => rw [hd, hu] at h; simp [orErr, bind, Except.bind] at h
    | some u =>
      rw [hd, hu] at h
      simp only [orErr, bind, Except.bind] at h
      obtain ⟨a, b, c⟩ := maxlRange_ok h
      exact ⟨d, u, rfl, rfl, a, b, c⟩

theorem included_iff (m : ℕ) (lp : List ℕ) (h0 : lp ≠ []) : included m lp = true ↔
    (m = 2 → lp.length + 1 = 3 ∧ ∀ (l : ℕ), lp[1]? = some l → l ≤ 5) := by
  unfold included
  by_cases hm : m = 2
  · match lp, h0 with
    | [a], _ => simp [hm]
    | [a, b], _ => simp [hm]
    | a :: b :: c :: l, _ => simp [hm]
  · simp [hm]

theorem lList_mem (maxls : List (List ℕ)) (ub : ℕ) (hl : maxls.length = ub - 1) (lp : List ℕ) :
    lp ∈ lList maxls ub ↔ lp ≠ [] ∧ lp.length ≤ ub - 1 ∧ lp.Pairwise (· ≥ ·) ∧
      ∀ (i l : ℕ), lp[i]? = some l → ∃ m, maxls[i]? = some m ∧ l ∈ m := by
  unfold lList
  simp only [List.mem_flatMap, List.mem_range, List.mem_filter, nonIncreasing_iff, product_mem]
  constructor
  · rintro ⟨i, hi, hf, hp⟩
    have hlen := hf.length_eq
    rw [List.length_take] at hlen
    refine ⟨?_, by omega, hp, ?_⟩
    · rintro rfl
      simp at hlen
      omega
    · intro j l hj
      have hj' : j < lp.length := (List.getElem?_eq_some_iff.1 hj).1
      have hjm : j < maxls.length := by omega
      refine ⟨maxls[j], List.getElem?_eq_getElem hjm, ?_⟩
      have := hf.get hj' (by rw [List.length_take]; omega)
      simp only [List.get_eq_getElem, List.getElem_take] at this
      rw [List.getElem?_eq_getElem hj'] at hj
      cases hj
      exact this
  · rintro ⟨h0, hlen, hp, hm⟩
    have hpos : 0 < lp.length := List.length_pos_of_ne_nil h0
    refine ⟨lp.length - 1, by omega, ?_, hp⟩
    rw [Nat.sub_add_cancel hpos, List.forall₂_iff_get]
    refine ⟨by rw [List.length_take]; omega, fun j h1 h2 => ?_⟩
    obtain ⟨m, hm1, hm2⟩ := hm j lp[j] (List.getElem?_eq_getElem h1)
    obtain ⟨hj, rfl⟩ := List.getElem?_eq_some_iff.1 hm1
    simpa [List.get_eq_getElem, List.getElem_take] using hm2

theorem lList_nodup (maxls : List (List ℕ)) (ub : ℕ) (hl : maxls.length = ub - 1)
    (hn : ∀ l ∈ maxls, l.Nodup) : (lList maxls ub).Nodup := by
  unfold lList
  rw [List.nodup_flatMap]
  refine ⟨fun i _ => (product_nodup _ fun l hl => hn l (List.mem_of_mem_take hl)).filter _, ?_⟩
  refine List.nodup_range.pairwise_of_forall_ne ?_
  intro i hi j hj hij
  rw [List.mem_range] at hi hj
  rw [Function.onFun, List.disjoint_left]
  intro x hx hy
  rw [List.mem_filter, product_mem] at hx hy
  have a := hx.1.length_eq
  have b := hy.1.length_eq
  rw [List.length_take] at a b
  omega

theorem mapM_all {α β : Type} {f : α → Except Err β} {l : List α} {r : List β} (h : l.mapM f = .ok r) :
    List.Forall₂ (fun a b => f a = .ok b) l r := by
  induction l generalizing r with
  | nil =>
    rw [List.mapM_nil] at h
    obtain rfl := Except.ok.inj h
    exact List.Forall₂.nil
  | cons a l ih =>
    rw [List.mapM_cons] at h
    simp only [bind, Except.bind, pure, Except.pure] at h
    cases hf : f a with
    | error e => simp [hf] at h
    | ok b =>
      cases hl : List.mapM f l with
      | error e => simp [hf, hl] at h
      | ok bs =>
        simp only [hf, hl, Except.ok.injEq] at h
        subst h
        exact .cons hf (ih hl)

theorem mapM_exists {α β : Type} {f : α → Except Err β} {l : List α} (h : ∀ x ∈ l, ∃ y, f x = .ok y) :
    ∃ r, l.mapM f = .ok r := by
  induction l with
  | nil => exact ⟨[], rfl⟩
  | cons x xs ih =>
    obtain ⟨l, hl⟩ := h x (by simp)
    obtain ⟨ls, hls⟩ := ih fun i hi => h i (by simp [hi])
    exact ⟨l :: ls, by rw [List.mapM_cons, hl]; simp only [bind, Except.bind] at hls ⊢; rw [hls]; rfl⟩

theorem mapM_range_get {α : Type} {f : ℕ → Except Err α} {n : ℕ} {l : List α}
    (h : (List.range n).mapM f = .ok l) :
    l.length = n ∧ ∀ (i : ℕ) (x : α), l[i]? = some x → f i = .ok x := by
  have hf := mapM_all h
  have hlen := hf.length_eq
  rw [List.length_range] at hlen
  refine ⟨hlen.symm, fun i x hx => ?_⟩
  obtain ⟨hi, rfl⟩ := List.getElem?_eq_some_iff.1 hx
  have := hf.get (i := i) (by rw [List.length_range]; omega) hi
  simpa using this

/-- **C83**: the invariant settings of a grid are exactly those in the ranges asked for, each once. -/
theorem C83_invariants (a : Args) (l : List GtinvAttrs) (h0 : a.attrs = none)
    (h : setGtinv a = .ok l) :
    (∀ x, x ∈ l ↔ OnInvariantGrid a x) ∧ (a.modelTypes.Nodup → l.Nodup) := by
  unfold setGtinv at h
  rw [h0] at h
  dsimp only at h
  unfold gtinvAttrs at h
  split at h
  · cases h
  · rename_i hany
    cases hm : (List.range (a.orderUb - 1)).mapM (maxlAt a.maxlInt a.maxlUb) with
    | error e => rw [hm] at h; simp [bind, Except.bind] at h
    | ok maxls =>
      rw [hm] at h
      simp only [bind, Except.bind, pure, Except.pure, Except.ok.injEq] at h
      obtain ⟨hlen, hget⟩ := mapM_range_get hm
      subst h
      constructor
      · intro x
        simp only [List.mem_map, List.mem_filter, Prod.exists, List.mem_product]
        constructor
        · rintro ⟨m, lp, ⟨⟨hmt, hlp⟩, hinc⟩, rfl⟩
          rw [lList_mem maxls _ hlen] at hlp
          obtain ⟨hne, hle, hpw, hmem⟩ := hlp
          rw [included_iff _ _ hne] at hinc
          have hpos : 0 < lp.length := List.length_pos_of_ne_nil hne
          refine ⟨hmt, by dsimp only; omega, by dsimp only; omega, rfl, ?_, hpw, hinc⟩
          intro i k hik
          obtain ⟨ml, h1, h2⟩ := hmem i k hik
          obtain ⟨d, u, hd, hu, _, _, hiff⟩ := maxlAt_ok (hget i ml h1)
          obtain ⟨q, hq⟩ := (hiff k).1 h2
          exact ⟨d, u, q, hd, hu, hq⟩
        · rintro ⟨hmt, ho2, hoU, hxl, hgrid, hpw, h2⟩
          obtain ⟨m, o, lp⟩ := x
          dsimp only at *
          subst hxl
          have hne : lp ≠ [] := by
            rintro rfl
            simp at ho2
          refine ⟨m, lp, ⟨⟨hmt, ?_⟩, (included_iff _ _ hne).2 h2⟩, rfl⟩
          rw [lList_mem maxls _ hlen]
          refine ⟨hne, by omega, hpw, ?_⟩
          intro i k hik
          have hi : i < maxls.length := by
            have := (List.getElem?_eq_some_iff.1 hik).1
            omega
          refine ⟨maxls[i], List.getElem?_eq_getElem hi, ?_⟩
          obtain ⟨d, u, hd, hu, _, _, hiff⟩ := maxlAt_ok (hget i _ (List.getElem?_eq_getElem hi))
          obtain ⟨d', u', q, hd', hu', hq⟩ := hgrid i k hik
          rw [hd] at hd'; cases hd'
          rw [hu] at hu'; cases hu'
          exact (hiff k).2 ⟨q, hq⟩
      · intro hnd
        refine List.Nodup.map_on ?_ ((hnd.product (lList_nodup maxls _ hlen ?_)).filter _)
        · rintro ⟨m, lp⟩ _ ⟨m', lp'⟩ _ e
          simp only [GtinvAttrs.mk.injEq] at e
          rw [e.1, e.2.2]
        · intro ml hml
          obtain ⟨i, hi, rfl⟩ := List.mem_iff_getElem.1 hml
          obtain ⟨_, _, _, _, _, hn, _⟩ := maxlAt_ok (hget i _ (List.getElem?_eq_getElem hi))
          exact hn

example : setGtinv { modelTypes := [2, 4], orderUb := 3, maxlUb := [8, 8], maxlInt := [4, 4] } =
    .ok [⟨2, 3, [4, 4]⟩, ⟨2, 3, [8, 4]⟩, ⟨4, 2, [4]⟩, ⟨4, 2, [8]⟩, ⟨4, 3, [4, 4]⟩, ⟨4, 3, [8, 4]⟩,
      ⟨4, 3, [8, 8]⟩] := by decide +kernel

/-! ## `set_params` -/

theorem mapM_maxl_ok (a : Args) (h : ∀ (i : ℕ), i + 2 ≤ a.orderUb → ∃ d u : ℕ, a.maxlInt[i]? = some d ∧
    a.maxlUb[i]? = some u ∧ 0 < d) :
    ∃ l, (List.range (a.orderUb - 1)).mapM (maxlAt a.maxlInt a.maxlUb) = .ok l := by
  have hall : ∀ i ∈ List.range (a.orderUb - 1), ∃ l, maxlAt a.maxlInt a.maxlUb i = .ok l := by
    intro i hi
    rw [List.mem_range] at hi
    obtain ⟨d, u, hd, hu, hp⟩ := h i (by omega)
    unfold maxlAt
    rw [hd, hu]
    simp only [orErr, bind, Except.bind]
    unfold maxlRange
    rw [if_neg (by omega)]
    exact ⟨_, rfl⟩
  exact mapM_exists hall

theorem mkGrid_iff (a : Args) (r : List GaussianAttrs) : (∃ g, mkGrid a r = .ok g) ↔ Possible a := by
  unfold mkGrid Possible
  by_cases hal : a.alpha.length = 3
  · rw [if_neg (by simpa using hal)]
    by_cases hg : a.gtinv = true
    · rw [if_pos hg]
      cases ha : a.attrs with
      | some l => simp [setGtinv, ha, bind, Except.bind, pure, Except.pure, hal]
      | none =>
        have e : setGtinv a = gtinvAttrs a := by unfold setGtinv; rw [ha]
        rw [e]
        have hzip : ((List.zip a.maxlUb a.maxlInt).any fun p => decide (p.1 < p.2)) = true ↔
            ¬ ∀ (i u d : ℕ), a.maxlUb[i]? = some u → a.maxlInt[i]? = some d → d ≤ u := by
          rw [List.any_eq_true]
          constructor
          · rintro ⟨⟨u, d⟩, hm, hlt⟩ hall
            obtain ⟨i, hi, hx⟩ := List.mem_iff_getElem.1 hm
            rw [List.getElem_zip] at hx
            rw [List.length_zip] at hi
            simp only [Prod.mk.injEq] at hx
            have := hall i u d (by rw [← hx.1]; exact List.getElem?_eq_getElem (by omega))
              (by rw [← hx.2]; exact List.getElem?_eq_getElem (by omega))
            simp only [decide_eq_true_eq] at hlt
            omega
          · intro hn
            push Not at hn
            obtain ⟨i, u, d, hu, hd, hlt⟩ := hn
            refine ⟨(u, d), ?_, by simpa using hlt⟩
            obtain ⟨h1, rfl⟩ := List.getElem?_eq_some_iff.1 hu
            obtain ⟨h2, rfl⟩ := List.getElem?_eq_some_iff.1 hd
            rw [List.mem_iff_getElem]
            exact ⟨i, by rw [List.length_zip]; omega, by rw [List.getElem_zip]⟩
        unfold gtinvAttrs
        by_cases hz : ((List.zip a.maxlUb a.maxlInt).any fun p => decide (p.1 < p.2)) = true
        · rw [if_pos hz]
          constructor
          · rintro ⟨g, hgr⟩; simp [bind, Except.bind] at hgr
          · rintro ⟨_, h2⟩
            exact absurd (h2 hg rfl).1 (hzip.1 hz)
        · rw [if_neg hz]
          constructor
          · rintro ⟨g, hgr⟩
            cases hm : (List.range (a.orderUb - 1)).mapM (maxlAt a.maxlInt a.maxlUb) with
            | error e => rw [hm] at hgr; simp [bind, Except.bind] at hgr
            | ok maxls =>
              obtain ⟨hlen, hget⟩ := mapM_range_get hm
              refine ⟨hal, fun _ _ => ⟨not_not.1 (mt hzip.2 hz), fun i hi => ?_⟩⟩
              obtain ⟨d, u, hd, hu, hp, _⟩ := maxlAt_ok (hget i _
                (List.getElem?_eq_getElem (show i < maxls.length by omega)))
              exact ⟨d, u, hd, hu, hp⟩
          · rintro ⟨_, h2⟩
            obtain ⟨l, hl⟩ := mapM_maxl_ok a (h2 hg rfl).2
            rw [hl]
            exact ⟨_, rfl⟩
    · rw [if_neg hg]
      simp [hal, hg]
  · rw [if_pos (by simpa using hal)]
    simp [hal]

theorem autoCutoff_iff (sizes : PStr → Option ℚ) (elements : List PStr) :
    (∃ c, autoCutoff sizes elements = .ok c) ↔ elements ≠ [] ∧ ∀ e ∈ elements, (sizes e).isSome := by
  unfold autoCutoff
  constructor
  · rintro ⟨c, hc⟩
    cases hm : elements.mapM fun e => orErr .keyError (sizes e) with
    | error e => rw [hm] at hc; simp [bind, Except.bind] at hc
    | ok ss =>
      have hf := mapM_all hm
      refine ⟨?_, fun e he => ?_⟩
      · rintro rfl
        cases hf
        rw [hm] at hc
        simp [bind, Except.bind, orErr] at hc
      · obtain ⟨i, hi, rfl⟩ := List.mem_iff_getElem.1 he
        have := hf.get hi (hf.length_eq ▸ hi)
        simp only [List.get_eq_getElem] at this
        cases hs : sizes elements[i] with
        | none => rw [hs] at this; simp [orErr] at this
        | some x => rfl
  · rintro ⟨hne, hall⟩
    obtain ⟨ss, hss⟩ := mapM_exists (l := elements) (f := fun e => orErr Err.keyError (sizes e)) (by
      intro e he
      obtain ⟨x, hx⟩ := Option.isSome_iff_exists.1 (hall e he)
      exact ⟨x, by rw [hx]; rfl⟩)
    rw [hss]
    have hlen := (mapM_all hss).length_eq
    cases ss with
    | nil => simp at hlen; exact absurd hlen hne
    | cons x xs =>
      simp only [bind, Except.bind, List.max?_cons', orErr, pure, Except.pure]
      exact ⟨_, rfl⟩

/-- **C83**: `set_params` succeeds exactly for the requests that can be met; if the cutoffs are left
to the program, the elements must be in the table of sizes. -/
theorem C83_set (sizes : PStr → Option ℚ) (a : Args) (s : State) :
    (∃ s', setParams sizes a s = .ok s') ↔
      Possible a ∧ (a.cutoffs = none → s.elements ≠ [] ∧ ∀ e ∈ s.elements, (sizes e).isSome) := by
  unfold setParams
  constructor
  · rintro ⟨s', h⟩
    cases hc : theCutoffs sizes s.elements a with
    | error e => rw [hc] at h; simp [bind, Except.bind] at h
    | ok c =>
      rw [hc] at h
      simp only [bind, Except.bind, pure, Except.pure] at h
      cases hg : mkGrid a (autoGaussians c a.nums) with
      | error e => rw [hg] at h; simp at h
      | ok g =>
        refine ⟨(mkGrid_iff a _).1 ⟨g, hg⟩, fun hn => ?_⟩
        rw [← autoCutoff_iff]
        unfold theCutoffs at hc
        rw [hn] at hc
        exact ⟨c, hc⟩
  · rintro ⟨hp, hel⟩
    have : ∃ c, theCutoffs sizes s.elements a = .ok c := by
      unfold theCutoffs
      cases hc : a.cutoffs with
      | some c => exact ⟨c, rfl⟩
      | none => exact (autoCutoff_iff sizes _).2 (hel hc)
    obtain ⟨c, hc⟩ := this
    obtain ⟨g, hg⟩ := (mkGrid_iff a (autoGaussians c a.nums)).2 hp
    rw [hc]
    simp only [bind, Except.bind, hg]
    exact ⟨_, rfl⟩

example : Possible {} := by
  rw [← mkGrid_iff {} []]
  exact ⟨_, rfl⟩
example : ¬ Possible { alpha := [1, 2] } := fun h => by simp [Possible] at h

end Verif.GridSearch
