import Verif.Model.Projector
import Verif.Spec.Projector
import Verif.Props.PolyInv
import Mathlib.LinearAlgebra.Matrix.Trace

/-!
# C103: the projector of polynomial invariants
-/

namespace Verif.PolyInv
open Verif.Spec

/-! ## Sums -/

theorem sum_mRange {M : Type} [AddCommMonoid M] (l : ℕ) (f : ℤ → M) :
    ((mRange l).map f).sum = ∑ m ∈ Finset.Icc (-(l : ℤ)) l, f m := by
  classical
  rw [← List.sum_toFinset f (nodup_mRange l)]
  apply Finset.sum_congr _ (fun _ _ => rfl)
  ext m
  simp [mem_mRange, abs_le]

theorem sum_mTuples_cons (l : ℕ) (ls : List ℕ) (f : List ℤ → ℝ) :
    ((mTuples (l :: ls)).map f).sum =
      ∑ m ∈ Finset.Icc (-(l : ℤ)) l, ((mTuples ls).map fun ms => f (m :: ms)).sum := by
  rw [← sum_mRange, mTuples]
  generalize mRange l = xs
  induction xs with
  | nil => simp
  | cons a xs ih =>
    simp only [List.flatMap_cons, List.map_append, List.sum_append, List.map_map, List.map_cons,
      List.sum_cons, ih]
    rfl

/-- The product of coefficients along a path. -/
def chain (C : ℕ → ℕ → ℕ → ℤ → ℤ → ℝ) : Bool → ℕ → ℤ → List ℕ → List ℤ → List ℕ → ℝ
  | first, q, s, l :: ls, m :: ms, q' :: qs =>
    cgOf C first q l q' s m * chain C false q' (s + m) ls ms qs
  | _, _, _, _, _, _ => 1

theorem chain_later (C : ℕ → ℕ → ℕ → ℤ → ℤ → ℝ) (q : ℕ) (s : ℤ) (ls : List ℕ) (ms : List ℤ)
    (qs : List ℕ) : chain C false q s ls ms qs = laterCouplings C q s ls ms qs := by
  induction ls generalizing q s ms qs with
  | nil => simp [chain, laterCouplings]
  | cons l ls ih =>
    cases ms with
    | nil => simp [chain, laterCouplings]
    | cons m ms =>
      cases qs with
      | nil => simp [chain, laterCouplings]
      | cons q' qs => simp [chain, laterCouplings, ih, cgOf]

theorem chain_all (C : ℕ → ℕ → ℕ → ℤ → ℤ → ℝ) (q : ℕ) (s : ℤ) (ls : List ℕ) (ms : List ℤ)
    (qs : List ℕ) : chain C true q s ls ms qs = allCouplings C q s ls ms qs := by
  cases ls with
  | nil => simp [chain, allCouplings]
  | cons l ls =>
    cases ms with
    | nil => simp [chain, allCouplings]
    | cons m ms =>
      cases qs with
      | nil => simp [chain, allCouplings]
      | cons q' qs => simp [chain, allCouplings, chain_later, cgOf]

section
variable {C : ℕ → ℕ → ℕ → ℤ → ℤ → ℝ} (hC : CouplingCoefficients C)
include hC

theorem cgOf_vanish (first : Bool) (q l q' : ℕ) (s m : ℤ)
    (h : ¬ Triangle q l q' ∨ (q' : ℤ) < |s + m|) : cgOf C first q l q' s m = 0 := by
  unfold cgOf
  split
  · exact hC.vanish _ _ _ _ _ h
  · apply hC.vanish
    rcases h with h | h
    · left; unfold Triangle at *; omega
    · right; rwa [add_comm]

theorem cgOf_reflect (first : Bool) (q l q' : ℕ) (s m : ℤ) (h : Triangle q l q') :
    cgOf C first q l q' (-s) (-m) = (-1) ^ (q + l - q') * cgOf C first q l q' s m := by
  unfold cgOf
  split
  · exact hC.reflect _ _ _ _ _ h
  · rw [hC.reflect _ _ _ _ _ (by unfold Triangle at *; omega), add_comm l q]

theorem cgOf_orthonormal (first : Bool) (q l a b : ℕ) (M : ℤ) (ha : Triangle q l a)
    (hb : Triangle q l b) (h1 : |M| ≤ a) (h2 : |M| ≤ b) :
    (∑ s ∈ Finset.Icc (-(q : ℤ)) q, ∑ m ∈ Finset.Icc (-(l : ℤ)) l,
      if s + m = M then cgOf C first q l a s m * cgOf C first q l b s m else 0) =
        if a = b then 1 else 0 := by
  unfold cgOf
  cases first with
  | true => simpa using hC.orthonormal q l a b M ha hb h1 h2
  | false =>
    rw [Finset.sum_comm]
    have := hC.orthonormal l q a b M (by unfold Triangle at *; omega)
      (by unfold Triangle at *; omega) h1 h2
    rw [← this]
    apply Finset.sum_congr rfl
    intro m _
    apply Finset.sum_congr rfl
    intro s _
    rw [add_comm s m]
    simp

/-- One coupling in a sum. -/
theorem sum_step (first : Bool) (q l a b : ℕ) (ha : Triangle q l a) (hb : Triangle q l b)
    (g : ℤ → ℝ) :
    (∑ s ∈ Finset.Icc (-(q : ℤ)) q, ∑ m ∈ Finset.Icc (-(l : ℤ)) l,
      cgOf C first q l a s m * cgOf C first q l b s m * g (s + m)) =
        if a = b then ∑ t ∈ Finset.Icc (-(a : ℤ)) a, g t else 0 := by
  have h1 : ∀ s m : ℤ, cgOf C first q l a s m * cgOf C first q l b s m * g (s + m) =
      ∑ t ∈ Finset.Icc (-(min a b : ℤ)) (min a b : ℤ),
        g t * (if s + m = t then cgOf C first q l a s m * cgOf C first q l b s m else 0) := by
    intro s m
    by_cases hin : s + m ∈ Finset.Icc (-(min a b : ℤ)) (min a b : ℤ)
    · rw [Finset.sum_eq_single_of_mem (s + m) hin]
      · rw [if_pos rfl]; ring
      · intro t _ ht
        rw [if_neg (Ne.symm ht), mul_zero]
    · rw [Finset.sum_eq_zero]
      · rw [Finset.mem_Icc, not_and_or] at hin
        have : (a : ℤ) < |s + m| ∨ (b : ℤ) < |s + m| := by
          rcases abs_cases (s + m) with ⟨e, _⟩ | ⟨e, _⟩ <;> rw [e] <;> omega
        rcases this with h | h
        · rw [cgOf_vanish hC first q l a s m (Or.inr h)]; simp
        · rw [cgOf_vanish hC first q l b s m (Or.inr h)]; simp
      · intro t ht
        rw [if_neg, mul_zero]
        rintro rfl
        exact hin ht
  simp only [h1]
  have h2 : ∀ s : ℤ, ∑ m ∈ Finset.Icc (-(l : ℤ)) l, ∑ t ∈ Finset.Icc (-(min a b : ℤ)) (min a b : ℤ),
        g t * (if s + m = t then cgOf C first q l a s m * cgOf C first q l b s m else 0) =
      ∑ t ∈ Finset.Icc (-(min a b : ℤ)) (min a b : ℤ), ∑ m ∈ Finset.Icc (-(l : ℤ)) l,
        g t * (if s + m = t then cgOf C first q l a s m * cgOf C first q l b s m else 0) :=
    fun s => Finset.sum_comm
  simp only [h2]
  rw [Finset.sum_comm]
  have h3 : ∀ t ∈ Finset.Icc (-(min a b : ℤ)) (min a b : ℤ),
      (∑ s ∈ Finset.Icc (-(q : ℤ)) q, ∑ m ∈ Finset.Icc (-(l : ℤ)) l,
        g t * (if s + m = t then cgOf C first q l a s m * cgOf C first q l b s m else 0)) =
      if a = b then g t else 0 := by
    intro t ht
    rw [Finset.mem_Icc] at ht
    simp only [← Finset.mul_sum]
    rw [cgOf_orthonormal hC first q l a b t ha hb (abs_le.2 (by omega)) (abs_le.2 (by omega))]
    split <;> simp
  rw [Finset.sum_congr rfl h3]
  by_cases hab : a = b
  · subst hab
    simp
  · simp [hab]

/-- The vectors of paths are orthonormal, for each last component. -/
theorem chain_orthonormal (L : ℕ) (M : ℤ) (hM : |M| ≤ L) (ls : List ℕ) :
    ∀ (first : Bool) (q : ℕ) (qs qs' : List ℕ), CouplesTo ls q L qs → CouplesTo ls q L qs' →
    (∑ s ∈ Finset.Icc (-(q : ℤ)) q, ((mTuples ls).map fun ms =>
      if s + ms.sum = M then chain C first q s ls ms qs * chain C first q s ls ms qs' else 0).sum) =
        if qs = qs' then 1 else 0 := by
  induction ls with
  | nil =>
    rintro first q qs qs' ⟨rfl, rfl⟩ ⟨_, rfl⟩
    simp only [mTuples, List.map_cons, List.map_nil, List.sum_cons, List.sum_nil, add_zero, chain,
      mul_one, if_true]
    rw [Finset.sum_ite_eq' (Finset.Icc (-(q : ℤ)) q) M, if_pos]
    rw [Finset.mem_Icc]
    exact abs_le.1 hM
  | cons l ls ih =>
    rintro first q qs qs' ⟨a, as, rfl, ha, hca⟩ ⟨b, bs, rfl, hb, hcb⟩
    simp only [sum_mTuples_cons]
    have h1 : ∀ s m : ℤ, ((mTuples ls).map fun ms =>
        if s + (m :: ms).sum = M then
          chain C first q s (l :: ls) (m :: ms) (a :: as) *
            chain C first q s (l :: ls) (m :: ms) (b :: bs) else 0).sum =
        cgOf C first q l a s m * cgOf C first q l b s m *
          ((mTuples ls).map fun ms => if (s + m) + ms.sum = M then
            chain C false a (s + m) ls ms as * chain C false b (s + m) ls ms bs else 0).sum := by
      intro s m
      rw [← List.sum_map_mul_left]
      congr 1
      apply List.map_congr_left
      intro ms _
      rw [List.sum_cons, ← add_assoc]
      split
      · simp only [chain]; ring
      · simp
    simp only [h1]
    rw [sum_step hC first q l a b ha hb fun t => ((mTuples ls).map fun ms => if t + ms.sum = M then
            chain C false a t ls ms as * chain C false b t ls ms bs else 0).sum]
    by_cases hab : a = b
    · subst hab
      rw [if_pos rfl, ih false a as bs hca hcb]
      simp
    · rw [if_neg hab, if_neg]
      intro h
      exact hab (List.cons.inj h).1

/-- Changing the sign of all components. -/
theorem chain_reflect (L : ℕ) (ls : List ℕ) :
    ∀ (first : Bool) (q : ℕ) (s : ℤ) (ms : List ℤ) (qs : List ℕ), CouplesTo ls q L qs →
      ms.length = ls.length →
      chain C first q (-s) ls (ms.map (-·)) qs = (-1) ^ (q + ls.sum + L) * chain C first q s ls ms qs := by
  induction ls with
  | nil =>
    rintro first q s ms qs ⟨rfl, rfl⟩ _
    have : ((-1 : ℝ)) ^ (q + ([] : List ℕ).sum + q) = 1 := by
      apply Even.neg_one_pow
      exact ⟨q, by simp⟩
    rw [this]
    simp [chain]
  | cons l ls ih =>
    rintro first q s ms qs ⟨a, as, rfl, ha, hca⟩ hlen
    cases ms with
    | nil => simp at hlen
    | cons m ms =>
      simp only [List.map_cons, chain]
      rw [cgOf_reflect hC first q l a s m ha]
      have e : -s + -m = -(s + m) := by ring
      rw [e, ih false a (s + m) ms as hca (by simpa using hlen)]
      have hp : ((-1 : ℝ)) ^ (q + (l :: ls).sum + L) = (-1) ^ (q + l - a) * (-1) ^ (a + ls.sum + L) := by
        rw [← pow_add]
        have : q + l - a + (a + ls.sum + L) = q + (l :: ls).sum + L := by
          have := ha.2.2
          rw [List.sum_cons]
          unfold Triangle at ha
          omega
        rw [this]
      rw [hp]
      ring

end

/-! ## Loops and tables -/

theorem mLoop_eq : mLoop = mRange := rfl

theorem mLoops_eq (ls : List ℕ) : mLoops ls = mTuples ls := by
  induction ls with
  | nil => rfl
  | cons l ls ih => rw [mLoops, mTuples, ih]; rfl

theorem nodup_qRange (q l : ℕ) : (qRange q l).Nodup := List.Nodup.filter _ List.nodup_range

theorem mem_lqLoop (q l k : ℕ) : k ∈ lqLoop q l ↔ Triangle q l k := by
  unfold lqLoop Triangle
  rw [List.mem_range'_1]
  omega

theorem lqLoop_perm (q l : ℕ) : (lqLoop q l).Perm (qRange q l) := by
  rw [List.perm_ext_iff_of_nodup]
  · intro k; rw [mem_lqLoop, mem_qRange]
  · exact List.nodup_range'
  · exact List.Nodup.filter _ List.nodup_range

theorem sum_flatMap_list {α β : Type} (xs : List α) (f : α → List β) (g : β → ℝ) :
    ((xs.flatMap f).map g).sum = (xs.map fun x => ((f x).map g).sum).sum := by
  induction xs with
  | nil => simp
  | cons x xs ih => simp [ih]

theorem cgGet_eq (t : List (CgKey × ℝ)) (k : CgKey) (v : ℝ) (h : ∀ e ∈ t, e.1 = k → e.2 = v)
    (hk : ∃ e ∈ t, e.1 = k) : cgGet t k = v := by
  unfold cgGet
  cases hf : t.find? fun e => decide (e.1 = k) with
  | some e =>
    have h1 := List.mem_of_find?_eq_some hf
    have h2 := List.find?_some hf
    exact h e h1 (by simpa using h2)
  | none =>
    obtain ⟨e, he, e1⟩ := hk
    rw [List.find?_eq_none] at hf
    exact absurd e1 (by simpa using hf e he)

/-- Every coefficient that is looked up in the last table is there. -/
theorem cgGet_last (C : ℕ → ℕ → ℕ → ℤ → ℤ → ℝ) (ln : ℕ) (first : Bool) (frontier : List (ℕ × ℤ))
    (l q : ℕ) (s m : ℤ) (hf : (q, s) ∈ frontier) (hm : m ∈ mLoop l) (hs : |s + m| ≤ ln) :
    cgGet (frontier.flatMap fun f => (mLoop l).flatMap fun m =>
      if |f.2 + m| > (ln : ℤ) then [] else [((f.1, ln, f.2, m), cgOf C first f.1 l ln f.2 m)])
      (q, ln, s, m) = cgOf C first q l ln s m := by
  apply cgGet_eq
  · intro e he e1
    simp only [List.mem_flatMap] at he
    obtain ⟨f, _, m', _, h⟩ := he
    split at h
    · simp at h
    · simp only [List.mem_singleton] at h
      subst h
      simp only [Prod.mk.injEq] at e1
      obtain ⟨rfl, _, rfl, rfl⟩ := e1
      rfl
  · refine ⟨((q, ln, s, m), cgOf C first q l ln s m), ?_, rfl⟩
    simp only [List.mem_flatMap]
    refine ⟨(q, s), hf, m, hm, ?_⟩
    rw [if_neg (by simpa using hs)]
    exact List.mem_singleton.2 rfl

/-- Every coefficient that is looked up in an earlier table is there. -/
theorem cgGet_inter (C : ℕ → ℕ → ℕ → ℤ → ℤ → ℝ) (first : Bool) (frontier : List (ℕ × ℤ))
    (l q q' : ℕ) (s m : ℤ) (hf : (q, s) ∈ frontier) (hq : q' ∈ lqLoop q l) (hm : m ∈ mLoop l)
    (hs : |s + m| ≤ q') :
    cgGet (frontier.flatMap fun f => (lqLoop f.1 l).flatMap fun (q' : ℕ) => (mLoop l).flatMap fun m =>
      if |f.2 + m| > (q' : ℤ) then [] else [((f.1, q', f.2, m), cgOf C first f.1 l q' f.2 m)])
      (q, q', s, m) = cgOf C first q l q' s m := by
  apply cgGet_eq
  · intro e he e1
    simp only [List.mem_flatMap] at he
    obtain ⟨f, _, k, _, m', _, h⟩ := he
    split at h
    · simp at h
    · simp only [List.mem_singleton] at h
      subst h
      simp only [Prod.mk.injEq] at e1
      obtain ⟨rfl, rfl, rfl, rfl⟩ := e1
      rfl
  · refine ⟨((q, q', s, m), cgOf C first q l q' s m), ?_, rfl⟩
    simp only [List.mem_flatMap]
    refine ⟨(q, s), hf, q', hq, m, hm, ?_⟩
    rw [if_neg (by simpa using hs)]
    exact List.mem_singleton.2 rfl

/-- What the loops reach is in the next frontier. -/
theorem mem_frontier (C : ℕ → ℕ → ℕ → ℤ → ℤ → ℝ) (first : Bool) (frontier : List (ℕ × ℤ))
    (l q q' : ℕ) (s m : ℤ) (hf : (q, s) ∈ frontier) (hq : q' ∈ lqLoop q l) (hm : m ∈ mLoop l)
    (hs : |s + m| ≤ q') :
    (q', s + m) ∈ (frontier.flatMap fun f => (lqLoop f.1 l).flatMap fun (q' : ℕ) =>
      (mLoop l).flatMap fun m =>
        if |f.2 + m| > (q' : ℤ) then [] else
          [(((f.1, q', f.2, m) : CgKey), cgOf C first f.1 l q' f.2 m)]).map
            fun e => (e.1.2.1, e.1.2.2.1 + e.1.2.2.2) := by
  rw [List.mem_map]
  refine ⟨((q, q', s, m), cgOf C first q l q' s m), ?_, rfl⟩
  simp only [List.mem_flatMap]
  refine ⟨(q, s), hf, q', hq, m, hm, ?_⟩
  rw [if_neg (by simpa using hs)]
  exact List.mem_singleton.2 rfl

theorem sum_single {α : Type} [DecidableEq α] (xs : List α) (hn : xs.Nodup) (a : α) (v : ℝ) :
    (xs.map fun x => if x = a then v else 0).sum = if a ∈ xs then v else 0 := by
  induction xs with
  | nil => simp
  | cons x xs ih =>
    rw [List.nodup_cons] at hn
    simp only [List.map_cons, List.sum_cons, ih hn.2, List.mem_cons]
    by_cases h1 : x = a
    · subst h1; simp [hn.1]
    · simp [h1, Ne.symm h1]

theorem sum_paths_one (l q ln : ℕ) (f : List ℕ → ℝ) [Decidable (Triangle q l ln)] :
    ((paths [l] q ln).map f).sum = if Triangle q l ln then f [ln] else 0 := by
  rw [paths, sum_flatMap_list]
  have : ∀ q' : ℕ, (((paths [] q' ln).map (q' :: ·)).map f).sum = if q' = ln then f [ln] else 0 := by
    intro q'
    rw [paths]
    by_cases h : q' = ln
    · subst h; simp
    · simp [h]
  simp only [this]
  have hn : (qRange q l).Nodup := List.Nodup.filter _ List.nodup_range
  rw [sum_single _ hn]
  have e := mem_qRange q l ln
  by_cases h : Triangle q l ln
  · rw [if_pos h, if_pos (e.2 h)]
  · rw [if_neg h, if_neg fun h' => h (e.1 h')]

/-- The products of the loops are the sums over paths. -/
theorem cgProd_eq {C : ℕ → ℕ → ℕ → ℤ → ℤ → ℝ} (hC : CouplingCoefficients C) (ln : ℕ) (l : ℕ)
    (ls : List ℕ) :
    ∀ (first : Bool) (frontier : List (ℕ × ℤ)) (state : List (ℕ × ℝ)) (s s' : ℤ) (ms ms' : List ℤ),
      ms ∈ mTuples (l :: ls) → ms' ∈ mTuples (l :: ls) →
      (∀ x ∈ state, (x.1, s) ∈ frontier ∧ (x.1, s') ∈ frontier) →
      |s + ms.sum| ≤ ln → |s' + ms'.sum| ≤ ln →
      cgProd ln (cgTables C ln first frontier (l :: ls)) state s s' (l :: ls) ms ms' =
        (state.map fun x => x.2 * ((paths (l :: ls) x.1 ln).map fun qs =>
          chain C first x.1 s (l :: ls) ms qs * chain C first x.1 s' (l :: ls) ms' qs).sum).sum := by
  classical
  induction ls generalizing l with
  | nil =>
    intro first frontier state s s' ms ms' hms hms' hst hs hs'
    simp only [mTuples, List.map_cons, List.map_nil, List.mem_flatMap, List.mem_singleton] at hms hms'
    obtain ⟨m, hm, rfl⟩ := hms
    obtain ⟨m', hm', rfl⟩ := hms'
    simp only [List.sum_cons, List.sum_nil, add_zero] at hs hs'
    simp only [cgTables, cgProd, finalProd]
    congr 1
    apply List.map_congr_left
    intro x hx
    obtain ⟨f1, f2⟩ := hst x hx
    rw [cgGet_last C ln first frontier l x.1 s m f1 hm hs,
      cgGet_last C ln first frontier l x.1 s' m' f2 hm' hs', sum_paths_one]
    split
    · simp only [chain]; ring
    · rename_i ht
      rw [cgOf_vanish hC first x.1 l ln s m (Or.inl ht)]
      simp
  | cons l' ls ih =>
    intro first frontier state s s' ms ms' hms hms' hst hs hs'
    rw [mTuples] at hms hms'
    simp only [List.mem_flatMap, List.mem_map] at hms hms'
    obtain ⟨m, hm, t, ht, rfl⟩ := hms
    obtain ⟨m', hm', t', ht', rfl⟩ := hms'
    rw [List.sum_cons, ← add_assoc] at hs hs'
    simp only [cgTables, cgProd]
    rw [ih l' false _ _ (s + m) (s' + m') t t' ht ht' ?_ hs hs']
    · unfold interProd
      rw [sum_flatMap_list]
      congr 1
      apply List.map_congr_left
      intro x hx
      obtain ⟨f1, f2⟩ := hst x hx
      rw [sum_flatMap_list]
      rw [((lqLoop_perm x.1 l).map _).sum_eq]
      rw [paths, sum_flatMap_list, ← List.sum_map_mul_left]
      congr 1
      apply List.map_congr_left
      intro q' hq'
      have hq : q' ∈ lqLoop x.1 l := (lqLoop_perm x.1 l).mem_iff.2 hq'
      rw [List.map_map]
      by_cases hskip : |s + m| > (q' : ℤ) ∨ |s' + m'| > (q' : ℤ)
      · rw [if_pos hskip]
        have hz : ∀ qs, (fun qs => chain C first x.1 s (l :: l' :: ls) (m :: t) qs *
            chain C first x.1 s' (l :: l' :: ls) (m' :: t') qs) (q' :: qs) = 0 := by
          intro qs
          simp only [chain]
          rcases hskip with h | h
          · rw [cgOf_vanish hC first x.1 l q' s m (Or.inr h)]; simp
          · rw [cgOf_vanish hC first x.1 l q' s' m' (Or.inr h)]; simp
        have : ((fun qs => chain C first x.1 s (l :: l' :: ls) (m :: t) qs *
            chain C first x.1 s' (l :: l' :: ls) (m' :: t') qs) ∘ fun x => q' :: x) = fun _ => 0 := by
          funext qs; exact hz qs
        rw [this]
        simp
      · rw [if_neg hskip]
        rw [not_or, not_lt, not_lt] at hskip
        simp only [List.map_cons, List.map_nil, List.sum_cons, List.sum_nil, add_zero]
        rw [cgGet_inter C first frontier l x.1 q' s m f1 hq hm hskip.1,
          cgGet_inter C first frontier l x.1 q' s' m' f2 hq hm' hskip.2,
          mul_assoc, mul_assoc, ← List.sum_map_mul_left, ← List.sum_map_mul_left]
        congr 2
        apply List.map_congr_left
        intro qs _
        simp only [Function.comp, chain]
        ring
    · intro y hy
      unfold interProd at hy
      simp only [List.mem_flatMap] at hy
      obtain ⟨x, hx, q', hq', h⟩ := hy
      obtain ⟨f1, f2⟩ := hst x hx
      split at h
      · simp at h
      · rename_i hskip
        rw [not_or, not_lt, not_lt] at hskip
        simp only [List.mem_singleton] at h
        subst h
        exact ⟨mem_frontier C first frontier l x.1 q' s m f1 hq' hm hskip.1,
          mem_frontier C first frontier l x.1 q' s' m' f2 hq' hm' hskip.2⟩

/-! ## One number -/

theorem sign_eq (a b : ℤ) : ((if (-a - -b).natAbs % 2 = 0 then (1 : ℝ) else -1)) =
    (-1) ^ a.natAbs * (-1) ^ b.natAbs := by
  rw [← pow_add]
  split
  · rename_i h
    rw [Even.neg_one_pow]
    rw [Nat.even_iff]; omega
  · rename_i h
    rw [Odd.neg_one_pow]
    rw [Nat.odd_iff]; omega

theorem sign_pow (a b : ℤ) : ((-1 : ℝ)) ^ (-a - -b).natAbs = (-1) ^ a.natAbs * (-1) ^ b.natAbs := by
  rw [← sign_eq]
  split
  · rename_i h
    rw [Even.neg_one_pow]
    rw [Nat.even_iff]; omega
  · rename_i h
    rw [Odd.neg_one_pow]
    rw [Nat.odd_iff]; omega

/-- The amplitude, for a tuple. -/
noncomputable def amp (C : ℕ → ℕ → ℕ → ℤ → ℤ → ℝ) (l1 : ℕ) (ls : List ℕ) (ln : ℕ) (qs : List ℕ) :
    List ℤ → ℝ
  | m1 :: ms => invariantVector C l1 ls ln qs m1 ms
  | [] => 0

/-- The entry of the projector. -/
noncomputable def entry (C : ℕ → ℕ → ℕ → ℤ → ℤ → ℝ) (l1 : ℕ) (ls : List ℕ) (ln : ℕ)
    (a b : List ℤ) : ℝ :=
  ((paths ls l1 ln).map fun qs => amp C l1 ls ln qs a * amp C l1 ls ln qs b).sum

theorem mem_rowTuples (l1 : ℕ) (ls : List ℕ) (ln : ℕ) (a : List ℤ) :
    a ∈ rowTuples l1 ls ln ↔ a ∈ mTuples (l1 :: ls) ∧ |a.sum| ≤ ln := by
  unfold rowTuples checkSum
  rw [List.mem_filter, mLoops_eq, decide_eq_true_eq, abs_neg]

theorem coreNum_eq {C : ℕ → ℕ → ℕ → ℤ → ℤ → ℝ} (hC : CouplingCoefficients C) (l1 : ℕ) (ls : List ℕ)
    (ln : ℕ) (m1 m1' : ℤ) (ms ms' : List ℤ) (h : m1 :: ms ∈ rowTuples l1 ls ln)
    (h' : m1' :: ms' ∈ rowTuples l1 ls ln) (hpos : ls ≠ [] → 0 ≤ m1 ∧ 0 ≤ m1') :
    coreNum C l1 ls ln (m1 :: ms) (m1' :: ms') = entry C l1 ls ln (m1 :: ms) (m1' :: ms') := by
  obtain ⟨h1, h2⟩ := (mem_rowTuples _ _ _ _).1 h
  obtain ⟨h1', h2'⟩ := (mem_rowTuples _ _ _ _).1 h'
  have hsq : Real.sqrt (2 * ln + 1) * Real.sqrt (2 * ln + 1) = 2 * ln + 1 :=
    Real.mul_self_sqrt (by positivity)
  have hsq0 : Real.sqrt (2 * ln + 1) ≠ 0 := by
    rw [Real.sqrt_ne_zero']; positivity
  have hn0 : (2 * (ln : ℝ) + 1) ≠ 0 := by positivity
  have hdiv : ∀ u v : ℝ, u / Real.sqrt (2 * ln + 1) * (v / Real.sqrt (2 * ln + 1)) =
      u * v / (2 * ln + 1) := by
    intro u v
    rw [div_mul_div_comm, hsq]
  have hsplit : ∀ (m : ℤ) (t : List ℤ), m :: t ∈ mTuples (l1 :: ls) → m ∈ mRange l1 ∧ t ∈ mTuples ls := by
    intro m t ht
    rw [mTuples] at ht
    simp only [List.mem_flatMap, List.mem_map] at ht
    obtain ⟨u, hu, v, hv, e⟩ := ht
    obtain ⟨rfl, rfl⟩ := List.cons.inj e
    exact ⟨hu, hv⟩
  obtain ⟨hm, ht⟩ := hsplit _ _ h1
  obtain ⟨hm', ht'⟩ := hsplit _ _ h1'
  unfold entry
  simp only [amp, invariantVector]
  cases ls with
  | nil =>
    simp only [mTuples, List.mem_singleton] at ht ht'
    subst ht; subst ht'
    simp only [coreNum, List.sum_cons, List.sum_nil, add_zero, true_and, and_true, and_self, paths]
    by_cases hl : l1 = ln
    · rw [if_pos hl, if_pos hl]
      simp only [List.map_cons, List.map_nil, List.sum_cons, List.sum_nil, add_zero, allCouplings,
        one_mul]
      rw [hdiv, sign_pow]
    · rw [if_neg hl, if_neg hl]; simp
  | cons l ls =>
    obtain ⟨hp, hp'⟩ := hpos (by simp)
    rw [mem_mRange, abs_le] at hm hm'
    have hfr : ∀ m : ℤ, 0 ≤ m → m ≤ l1 →
        (l1, m) ∈ (List.range (l1 + 1)).map fun (m : ℕ) => (l1, (m : ℤ)) := by
      intro m h0 h3
      rw [List.mem_map]
      exact ⟨m.toNat, by rw [List.mem_range]; omega, by rw [Int.toNat_of_nonneg h0]⟩
    simp only [coreNum, allTables]
    rw [sign_eq, cgProd_eq hC ln l ls true _ [(l1, 1)] m1 m1' ms ms' ht ht' ?_ (by simpa using h2)
      (by simpa using h2')]
    · simp only [List.map_cons, List.map_nil, List.sum_cons, List.sum_nil, add_zero, one_mul]
      rw [← List.sum_map_mul_right]
      congr 1
      apply List.map_congr_left
      intro qs _
      rw [chain_all, chain_all, mul_mul_mul_comm (allCouplings C l1 m1 (l :: ls) ms qs), hdiv]
    · intro x hx
      simp only [List.mem_singleton] at hx
      subst hx
      exact ⟨hfr m1 hp hm.2, hfr m1' hp' hm'.2⟩

/-! ## The matrix -/

theorem foldl_setCell (ws : List ((ℕ × ℕ) × ℝ)) (c : ℕ → ℕ → ℝ) (i j : ℕ) (v : ℝ)
    (h : ∀ w ∈ ws, w.1 = (i, j) → w.2 = v) (hc : (∃ w ∈ ws, w.1 = (i, j)) ∨ c i j = v) :
    ws.foldl setCell c i j = v := by
  induction ws generalizing c with
  | nil =>
    rcases hc with ⟨w, hw, _⟩ | hc
    · simp at hw
    · exact hc
  | cons w ws ih =>
    rw [List.foldl_cons]
    apply ih
    · intro w' hw'; exact h w' (List.mem_cons_of_mem _ hw')
    · by_cases hw : w.1 = (i, j)
      · right
        unfold setCell
        rw [if_pos hw.symm]
        exact h w List.mem_cons_self hw
      · rcases hc with ⟨w', hw', e⟩ | hc
        · rcases List.mem_cons.1 hw' with rfl | hw'
          · exact absurd e hw
          · exact Or.inl ⟨w', hw', e⟩
        · right
          unfold setCell
          rw [if_neg fun e => hw e.symm]
          exact hc

theorem nodup_rowTuples (l1 : ℕ) (ls : List ℕ) (ln : ℕ) : (rowTuples l1 ls ln).Nodup := by
  unfold rowTuples
  rw [mLoops_eq]
  exact (nodup_mTuples _).filter _

theorem neg_mem_mTuples (ls : List ℕ) (a : List ℤ) (h : a ∈ mTuples ls) :
    a.map (-·) ∈ mTuples ls := by
  rw [mem_mTuples] at *
  unfold Components at *
  induction h with
  | nil => exact .nil
  | cons h1 _ ih => exact .cons (by rwa [abs_neg]) ih

theorem sum_map_neg (a : List ℤ) : (a.map (-·)).sum = -a.sum := by
  induction a with
  | nil => simp
  | cons x a ih => simp only [List.map_cons, List.sum_cons, ih]; ring

theorem neg_mem_rowTuples (l1 : ℕ) (ls : List ℕ) (ln : ℕ) (a : List ℤ)
    (h : a ∈ rowTuples l1 ls ln) : a.map (-·) ∈ rowTuples l1 ls ln := by
  rw [mem_rowTuples] at *
  refine ⟨neg_mem_mTuples _ _ h.1, ?_⟩
  rw [sum_map_neg, abs_neg]
  exact h.2

theorem seqOf_inj (l1 : ℕ) (ls : List ℕ) (ln : ℕ) (a b : List ℤ) (h : a ∈ rowTuples l1 ls ln)
    (e : seqOf l1 ls ln a = seqOf l1 ls ln b) : a = b := by
  unfold seqOf at e
  exact (List.idxOf_inj h).1 e

theorem neg_neg_list (a : List ℤ) : (a.map (-·)).map (-·) = a := by
  rw [List.map_map]
  have : ((fun x : ℤ => -x) ∘ fun x => -x) = id := by funext x; simp
  rw [this, List.map_id]

theorem rowTuples_cons (l1 : ℕ) (ls : List ℕ) (ln : ℕ) (a : List ℤ)
    (h : a ∈ rowTuples l1 ls ln) : ∃ m ms, a = m :: ms ∧ ms.length = ls.length := by
  rw [mem_rowTuples] at h
  have := (mem_mTuples _ _).1 h.1
  unfold Components at this
  cases this with
  | cons h1 h2 => exact ⟨_, _, rfl, h2.length_eq.symm⟩

section
variable {C : ℕ → ℕ → ℕ → ℤ → ℤ → ℝ} (hC : CouplingCoefficients C)

theorem entry_symm (l1 : ℕ) (ls : List ℕ) (ln : ℕ) (a b : List ℤ) :
    entry C l1 ls ln a b = entry C l1 ls ln b a := by
  unfold entry
  congr 1
  apply List.map_congr_left
  intro qs _
  ring

include hC

theorem amp_neg (l1 : ℕ) (ls : List ℕ) (ln : ℕ) (heven : (l1 + ls.sum + ln) % 2 = 0) (a : List ℤ)
    (h : a ∈ rowTuples l1 ls ln) (qs : List ℕ) (hq : CouplesTo ls l1 ln qs) :
    amp C l1 ls ln qs (a.map (-·)) = amp C l1 ls ln qs a := by
  obtain ⟨m, ms, rfl, hl⟩ := rowTuples_cons _ _ _ _ h
  simp only [List.map_cons, amp, invariantVector]
  rw [← chain_all, ← chain_all, chain_reflect hC ln ls true l1 m ms qs hq hl,
    Even.neg_one_pow (Nat.even_iff.2 heven), one_mul, sum_map_neg]
  have : (-m + -ms.sum).natAbs = (m + ms.sum).natAbs := by omega
  rw [this]

theorem entry_neg (l1 : ℕ) (ls : List ℕ) (ln : ℕ) (heven : (l1 + ls.sum + ln) % 2 = 0)
    (a b : List ℤ) (h : a ∈ rowTuples l1 ls ln) :
    entry C l1 ls ln (a.map (-·)) b = entry C l1 ls ln a b := by
  unfold entry
  congr 1
  apply List.map_congr_left
  intro qs hqs
  rw [amp_neg hC l1 ls ln heven a h qs ((mem_paths _ _ _ _).1 hqs)]

/-- The cells of the matrix, whatever the order of the writes. -/
theorem core_entry (l1 : ℕ) (ls : List ℕ) (ln : ℕ) (heven : (l1 + ls.sum + ln) % 2 = 0)
    (ws : List ((ℕ × ℕ) × ℝ))
    (hws : ws.Perm ((visits l1 ls ln).flatMap fun p => writesOf C l1 ls ln p))
    (a b : List ℤ) (ha : a ∈ rowTuples l1 ls ln) (hb : b ∈ rowTuples l1 ls ln) :
    coreAfter ws (seqOf l1 ls ln a) (seqOf l1 ls ln b) = entry C l1 ls ln a b := by
  have hen : ∀ x y : List ℤ, x ∈ rowTuples l1 ls ln → entry C l1 ls ln y (x.map (-·)) =
      entry C l1 ls ln y x := by
    intro x y hx
    rw [entry_symm, entry_neg hC l1 ls ln heven _ _ hx, entry_symm]
  have hem : ∀ x y : List ℤ, x ∈ rowTuples l1 ls ln → entry C l1 ls ln (x.map (-·)) y =
      entry C l1 ls ln x y := fun x y hx => entry_neg hC l1 ls ln heven x y hx
  unfold coreAfter
  apply foldl_setCell
  · intro w hw e
    rw [hws.mem_iff, List.mem_flatMap] at hw
    obtain ⟨⟨p, p'⟩, hp, hw⟩ := hw
    unfold visits at hp
    simp only [List.mem_flatMap, List.mem_map, List.mem_filter, Prod.mk.injEq] at hp
    obtain ⟨x, ⟨hx, hx0⟩, y, ⟨hy, hy0⟩, rfl, rfl⟩ := hp
    have hval : coreNum C l1 ls ln x y = entry C l1 ls ln x y := by
      obtain ⟨m, ms, rfl, hl⟩ := rowTuples_cons _ _ _ _ hx
      obtain ⟨m', ms', rfl, hl'⟩ := rowTuples_cons _ _ _ _ hy
      apply coreNum_eq hC l1 ls ln m m' ms ms' hx hy
      intro hne
      cases ls with
      | nil => exact absurd rfl hne
      | cons l ls => exact ⟨by simpa [firstHalf] using hx0, by simpa [firstHalf] using hy0⟩
    have hnx := neg_mem_rowTuples _ _ _ _ hx
    have hny := neg_mem_rowTuples _ _ _ _ hy
    have inj : ∀ u v : List ℤ, u ∈ rowTuples l1 ls ln → v ∈ rowTuples l1 ls ln →
        (seqOf l1 ls ln u, seqOf l1 ls ln v) = (seqOf l1 ls ln a, seqOf l1 ls ln b) →
          u = a ∧ v = b := by
      intro u v hu hv e
      rw [Prod.mk.injEq] at e
      exact ⟨seqOf_inj _ _ _ _ _ hu e.1, seqOf_inj _ _ _ _ _ hv e.2⟩
    unfold writesOf at hw
    simp only [] at hw
    split at hw
    · simp at hw
    rw [List.mem_map] at hw
    obtain ⟨c, hc, rfl⟩ := hw
    simp only [] at e
    subst e
    simp only []
    rw [hval]
    cases ls with
    | nil =>
      simp only [List.mem_append, List.mem_singleton] at hc
      rcases hc with hc | hc
      · obtain ⟨rfl, rfl⟩ := inj _ _ hx hy hc.symm
        rfl
      · split at hc
        · rw [List.mem_singleton] at hc
          obtain ⟨rfl, rfl⟩ := inj _ _ hy hx hc.symm
          rw [entry_symm]
        · simp at hc
    | cons l ls =>
      simp only [assignCells, List.mem_append, List.mem_cons, List.not_mem_nil, or_false] at hc
      rcases hc with (hc | hc | hc | hc) | hc
      · obtain ⟨rfl, rfl⟩ := inj _ _ hx hy hc.symm
        rfl
      · obtain ⟨rfl, rfl⟩ := inj _ _ hx hny hc.symm
        rw [hen _ _ hy]
      · obtain ⟨rfl, rfl⟩ := inj _ _ hnx hy hc.symm
        rw [hem _ _ hx]
      · obtain ⟨rfl, rfl⟩ := inj _ _ hnx hny hc.symm
        rw [hem _ _ hx, hen _ _ hy]
      · split at hc
        · simp only [List.mem_cons, List.not_mem_nil, or_false] at hc
          rcases hc with hc | hc | hc | hc
          · obtain ⟨rfl, rfl⟩ := inj _ _ hy hx hc.symm
            rw [entry_symm]
          · obtain ⟨rfl, rfl⟩ := inj _ _ hy hnx hc.symm
            rw [hen _ _ hx, entry_symm]
          · obtain ⟨rfl, rfl⟩ := inj _ _ hny hx hc.symm
            rw [hem _ _ hy, entry_symm]
          · obtain ⟨rfl, rfl⟩ := inj _ _ hny hnx hc.symm
            rw [hem _ _ hy, hen _ _ hx, entry_symm]
        · simp at hc
  · left
    -- the half that is visited
    have hhalf : ∀ x : List ℤ, x ∈ rowTuples l1 ls ln → ∃ y, y ∈ rowTuples l1 ls ln ∧
        firstHalf ls y = true ∧ (x = y ∨ (ls ≠ [] ∧ x = y.map (-·))) := by
      intro x hx
      cases ls with
      | nil => exact ⟨x, hx, rfl, Or.inl rfl⟩
      | cons l ls =>
        obtain ⟨m, ms, rfl, hl⟩ := rowTuples_cons _ _ _ _ hx
        by_cases hm : 0 ≤ m
        · exact ⟨m :: ms, hx, by simpa [firstHalf] using hm, Or.inl rfl⟩
        · refine ⟨(m :: ms).map (-·), neg_mem_rowTuples _ _ _ _ hx, ?_, Or.inr ⟨by simp, ?_⟩⟩
          · simp only [List.map_cons, firstHalf, decide_eq_true_eq]; omega
          · rw [neg_neg_list]
    obtain ⟨x, hx, hx0, hax⟩ := hhalf a ha
    obtain ⟨y, hy, hy0, hby⟩ := hhalf b hb
    have hvis : ∀ u v : List ℤ, u ∈ rowTuples l1 ls ln → firstHalf ls u = true → v ∈ rowTuples l1 ls ln → firstHalf ls v = true → (u, v) ∈ visits l1 ls ln := by
      intro u v hu hu0 hv hv0
      unfold visits
      simp only [List.mem_flatMap, List.mem_map, List.mem_filter, Prod.mk.injEq]
      exact ⟨u, ⟨hu, hu0⟩, v, ⟨hv, hv0⟩, rfl, rfl⟩
    by_cases hij : seqOf l1 ls ln x ≤ seqOf l1 ls ln y
    · refine ⟨((seqOf l1 ls ln a, seqOf l1 ls ln b), coreNum C l1 ls ln x y), ?_, rfl⟩
      rw [hws.mem_iff, List.mem_flatMap]
      refine ⟨(x, y), hvis x y hx hx0 hy hy0, ?_⟩
      unfold writesOf
      simp only []
      rw [if_neg (by omega), List.mem_map]
      refine ⟨(seqOf l1 ls ln a, seqOf l1 ls ln b), ?_, rfl⟩
      cases ls with
      | nil =>
        rcases hax with rfl | ⟨h, _⟩
        · rcases hby with rfl | ⟨h, _⟩
          · simp
          · exact absurd rfl h
        · exact absurd rfl h
      | cons l ls =>
        simp only [assignCells, List.mem_append, List.mem_cons]
        left
        rcases hax with rfl | ⟨_, rfl⟩ <;> rcases hby with rfl | ⟨_, rfl⟩ <;> simp
    · refine ⟨((seqOf l1 ls ln a, seqOf l1 ls ln b), coreNum C l1 ls ln y x), ?_, rfl⟩
      rw [hws.mem_iff, List.mem_flatMap]
      refine ⟨(y, x), hvis y x hy hy0 hx hx0, ?_⟩
      unfold writesOf
      simp only []
      rw [if_neg (by omega), List.mem_map]
      refine ⟨(seqOf l1 ls ln a, seqOf l1 ls ln b), ?_, rfl⟩
      cases ls with
      | nil =>
        rcases hax with rfl | ⟨h, _⟩
        · rcases hby with rfl | ⟨h, _⟩
          · rw [if_pos (by omega)]; simp
          · exact absurd rfl h
        · exact absurd rfl h
      | cons l ls =>
        simp only [assignCells, List.mem_append]
        right
        rw [if_pos (by omega)]
        rcases hax with rfl | ⟨_, rfl⟩ <;> rcases hby with rfl | ⟨_, rfl⟩ <;> simp

/-- The vectors of the paths are orthonormal. -/
theorem amp_orthonormal (l1 : ℕ) (ls : List ℕ) (ln : ℕ) (qs qs' : List ℕ)
    (hq : CouplesTo ls l1 ln qs) (hq' : CouplesTo ls l1 ln qs') :
    ((rowTuples l1 ls ln).map fun a => amp C l1 ls ln qs a * amp C l1 ls ln qs' a).sum =
      if qs = qs' then 1 else 0 := by
  have hn0 : (2 * (ln : ℝ) + 1) ≠ 0 := by positivity
  have hsq : Real.sqrt (2 * ln + 1) * Real.sqrt (2 * ln + 1) = 2 * ln + 1 :=
    Real.mul_self_sqrt (by positivity)
  have hfil : ∀ (xs : List (List ℤ)) (p : List ℤ → Bool) (f : List ℤ → ℝ),
      ((xs.filter p).map f).sum = (xs.map fun a => if p a then f a else 0).sum := by
    intro xs p f
    induction xs with
    | nil => rfl
    | cons x xs ih =>
      by_cases h : p x
      · simp [h, ih]
      · simp [h, ih]
  have hcomm : ∀ (xs : List (List ℤ)) (S : Finset ℤ) (f : List ℤ → ℤ → ℝ),
      (xs.map fun a => ∑ M ∈ S, f a M).sum = ∑ M ∈ S, (xs.map fun a => f a M).sum := by
    intro xs S f
    induction xs with
    | nil => simp
    | cons x xs ih => simp only [List.map_cons, List.sum_cons, ih, Finset.sum_add_distrib]
  unfold rowTuples
  rw [hfil, mLoops_eq]
  have hsel : ∀ a : List ℤ, (if checkSum a ln then amp C l1 ls ln qs a * amp C l1 ls ln qs' a else 0) =
      ∑ M ∈ Finset.Icc (-(ln : ℤ)) ln,
        if a.sum = M then amp C l1 ls ln qs a * amp C l1 ls ln qs' a else 0 := by
    intro a
    rw [Finset.sum_ite_eq]
    have : checkSum a ln = true ↔ a.sum ∈ Finset.Icc (-(ln : ℤ)) ln := by
      rw [checkSum, decide_eq_true_eq, abs_neg, Finset.mem_Icc, abs_le]
    by_cases h : checkSum a ln = true
    · rw [if_pos h, if_pos (this.1 h)]
    · rw [if_neg h, if_neg fun h' => h (this.2 h')]
  simp only [hsel]
  rw [hcomm]
  have hM : ∀ M ∈ Finset.Icc (-(ln : ℤ)) ln,
      ((mTuples (l1 :: ls)).map fun a =>
        if a.sum = M then amp C l1 ls ln qs a * amp C l1 ls ln qs' a else 0).sum =
      (if qs = qs' then 1 else 0) / (2 * ln + 1) := by
    intro M hM
    rw [sum_mTuples_cons, ← chain_orthonormal hC ln M (by rwa [abs_le, ← Finset.mem_Icc]) ls true l1
      qs qs' hq hq', Finset.sum_div]
    apply Finset.sum_congr rfl
    intro m _
    rw [div_eq_mul_inv, ← List.sum_map_mul_right]
    congr 1
    apply List.map_congr_left
    intro ms _
    rw [List.sum_cons]
    split
    · rw [chain_all, chain_all]
      simp only [amp, invariantVector]
      have hs : ((-1 : ℝ)) ^ (m + ms.sum).natAbs * (-1) ^ (m + ms.sum).natAbs = 1 := by
        rw [← pow_add, Even.neg_one_pow ⟨_, rfl⟩]
      have hd : ((-1 : ℝ) ^ (m + ms.sum).natAbs / Real.sqrt (2 * ln + 1)) *
          ((-1) ^ (m + ms.sum).natAbs / Real.sqrt (2 * ln + 1)) = (2 * (ln : ℝ) + 1)⁻¹ := by
        rw [div_mul_div_comm, hs, hsq, one_div]
      rw [← hd]
      ring
    · simp
  rw [Finset.sum_congr rfl hM, Finset.sum_const, Int.card_Icc, nsmul_eq_mul]
  have : ((((ln : ℤ) + 1 - -(ln : ℤ)).toNat : ℕ) : ℝ) = 2 * ln + 1 := by
    have : ((ln : ℤ) + 1 - -(ln : ℤ)).toNat = 2 * ln + 1 := by omega
    rw [this]; push_cast; ring
  rw [this]
  field_simp
end

/-! ## The theorems -/

theorem seqOf_get (l1 : ℕ) (ls : List ℕ) (ln : ℕ) (i : Fin (rowTuples l1 ls ln).length) :
    seqOf l1 ls ln (rowTuples l1 ls ln)[i] = i := by
  unfold seqOf
  exact (nodup_rowTuples l1 ls ln).idxOf_getElem i i.2

theorem cppIndex_eq (ls : List ℕ) (ms : List ℤ) (h : ms.length = ls.length) :
    cppIndexLoop ls ms = (lmToIndex ls ms, size ls) := by
  induction ls generalizing ms with
  | nil => cases ms <;> simp [cppIndexLoop, lmToIndex, size]
  | cons l ls ih =>
    cases ms with
    | nil => simp at h
    | cons m ms =>
      rw [cppIndexLoop, ih ms (by simpa using h), lmToIndex, size_cons]
      simp only [Prod.mk.injEq]
      constructor
      · rw [add_comm m]
        change _ = ((l : ℤ) + m) * size ls + _
        ring
      · ring

theorem lmRows_length (l1 : ℕ) (ls : List ℕ) (ln : ℕ) :
    (lmRows l1 ls ln).length = (rowTuples l1 ls ln).length := by
  simp [lmRows, rowIndices]

theorem components_append (xs : List ℕ) (ln : ℕ) (a : List ℤ) (m : ℤ) :
    Components (xs ++ [ln]) (a ++ [m]) ↔ Components xs a ∧ |m| ≤ ln := by
  unfold Components
  constructor
  · intro h
    have hl := h.length_eq
    simp only [List.length_append, List.length_cons, List.length_nil, add_left_inj] at hl
    have h1 := List.forall₂_take xs.length h
    have h2 := List.forall₂_drop xs.length h
    simp only [List.take_left', List.drop_left'] at h1 h2
    rw [List.take_left' hl.symm] at h1
    rw [List.drop_left' hl.symm] at h2
    cases h2 with
    | cons h3 _ => exact ⟨h1, h3⟩
  · rintro ⟨h1, h2⟩
    exact List.rel_append h1 (.cons h2 .nil)

theorem row_components (l1 : ℕ) (ls : List ℕ) (ln : ℕ) (a : List ℤ)
    (ha : a ∈ rowTuples l1 ls ln) : Components (l1 :: (ls ++ [ln])) (a ++ [-(a.sum)]) := by
  rw [mem_rowTuples] at ha
  exact (components_append (l1 :: ls) ln a _).2
    ⟨(mem_mTuples _ _).1 ha.1, by rw [abs_neg]; exact ha.2⟩

theorem lmRows_eq (l1 : ℕ) (ls : List ℕ) (ln : ℕ) : lmRows l1 ls ln =
    (rowTuples l1 ls ln).map fun a => (l1 :: (ls ++ [ln])).zip (a ++ [-(a.sum)]) := by
  unfold lmRows rowIndices
  rw [List.map_map]
  apply List.map_congr_left
  intro a ha
  have h := row_components l1 ls ln a ha
  simp only [Function.comp]
  rw [cppIndex_eq _ _ h.length_eq.symm]
  exact C102_index_roundtrip _ _ h

/-- C103: the rows of components that come with the projector are exactly the components whose
total is zero, each once. -/
theorem C103_rows (l1 : ℕ) (ls : List ℕ) (ln : ℕ) :
    (lmRows l1 ls ln).Nodup ∧
    ∀ r, r ∈ lmRows l1 ls ln ↔ ∃ ms, Components (l1 :: (ls ++ [ln])) ms ∧ ms.sum = 0 ∧
      r = (l1 :: (ls ++ [ln])).zip ms := by
  have hrow := row_components l1 ls ln
  rw [lmRows_eq]
  constructor
  · refine List.Nodup.map_on ?_ (nodup_rowTuples l1 ls ln)
    intro a ha b hb e
    have l1' := (hrow a ha).length_eq
    have l2' := (hrow b hb).length_eq
    have := congrArg (List.map Prod.snd) e
    rw [List.map_snd_zip (by omega), List.map_snd_zip (by omega)] at this
    have h2 := congrArg List.dropLast this
    simpa using h2
  · intro r
    rw [List.mem_map]
    constructor
    · rintro ⟨a, ha, rfl⟩
      exact ⟨a ++ [-(a.sum)], hrow a ha, by simp, rfl⟩
    · rintro ⟨ms, hms, hs, rfl⟩
      have hne : ms ≠ [] := by
        rintro rfl
        have := hms.length_eq
        simp at this
      have hsplit := List.dropLast_append_getLast hne
      have hsum : (ms.getLast hne) = -(ms.dropLast.sum) := by
        have := congrArg List.sum hsplit
        rw [List.sum_append, List.sum_singleton, hs] at this
        omega
      rw [hsum] at hsplit
      refine ⟨ms.dropLast, ?_, by rw [hsplit]⟩
      rw [← hsplit] at hms
      obtain ⟨h1, h2⟩ := (components_append (l1 :: ls) ln ms.dropLast _).1 hms
      rw [mem_rowTuples]
      exact ⟨(mem_mTuples _ _).2 h1, by rwa [abs_neg] at h2⟩

/-- C103: with any order of the parallel writes, the entry of the projector for two rows of
components is the sum over all couplings of the products of their amplitudes. -/
theorem C103_entries {C : ℕ → ℕ → ℕ → ℤ → ℤ → ℝ} (hC : CouplingCoefficients C) (l1 : ℕ)
    (ls : List ℕ) (ln : ℕ) (heven : (l1 :: (ls ++ [ln])).sum % 2 = 0) (ws : List ((ℕ × ℕ) × ℝ))
    (hws : ws.Perm ((visits l1 ls ln).flatMap fun p => writesOf C l1 ls ln p))
    (paths' : Finset (List ℕ)) (hp : ∀ qs, qs ∈ paths' ↔ CouplesTo ls l1 ln qs)
    (i j : ℕ) (m m' mn mn' : ℤ) (ms ms' : List ℤ) (hl : ms.length = ls.length)
    (hl' : ms'.length = ls.length)
    (hi : (lmRows l1 ls ln)[i]? = some ((l1 :: (ls ++ [ln])).zip (m :: (ms ++ [mn]))))
    (hj : (lmRows l1 ls ln)[j]? = some ((l1 :: (ls ++ [ln])).zip (m' :: (ms' ++ [mn'])))) :
    coreAfter ws i j = ∑ qs ∈ paths',
      invariantVector C l1 ls ln qs m ms * invariantVector C l1 ls ln qs m' ms' := by
  have heven' : (l1 + ls.sum + ln) % 2 = 0 := by
    rw [List.sum_cons, List.sum_append, List.sum_singleton] at heven
    rwa [add_assoc]
  have key : ∀ (k : ℕ) (x xn : ℤ) (xs : List ℤ), xs.length = ls.length →
      (lmRows l1 ls ln)[k]? = some ((l1 :: (ls ++ [ln])).zip (x :: (xs ++ [xn]))) →
        x :: xs ∈ rowTuples l1 ls ln ∧ seqOf l1 ls ln (x :: xs) = k := by
    intro k x xn xs hlen h
    rw [lmRows_eq, List.getElem?_map] at h
    cases hr : (rowTuples l1 ls ln)[k]? with
    | none => rw [hr] at h; simp at h
    | some a =>
      rw [hr, Option.map_some, Option.some.injEq] at h
      obtain ⟨hk, ha⟩ := List.getElem?_eq_some_iff.1 hr
      have ham : a ∈ rowTuples l1 ls ln := List.mem_of_getElem? hr
      have e := congrArg (List.map Prod.snd) h
      have hl1 := (row_components l1 ls ln a ham).length_eq
      rw [List.map_snd_zip (by omega), List.map_snd_zip (by simp; omega)] at e
      have e2 := congrArg List.dropLast e
      rw [List.dropLast_concat, ← List.cons_append, List.dropLast_concat] at e2
      subst e2
      refine ⟨ham, ?_⟩
      have := seqOf_get l1 ls ln ⟨k, hk⟩
      simp only [Fin.getElem_fin] at this
      rw [ha] at this
      exact this
  obtain ⟨h1, h2⟩ := key i m mn ms hl hi
  obtain ⟨h1', h2'⟩ := key j m' mn' ms' hl' hj
  rw [← h2, ← h2', core_entry hC l1 ls ln heven' ws hws _ _ h1 h1']
  unfold entry
  rw [← List.sum_toFinset _ (nodup_paths ls l1 ln)]
  apply Finset.sum_congr
  · ext qs
    rw [List.mem_toFinset, mem_paths, hp]
  · intro qs _; rfl

theorem paths_total (l1 : ℕ) (ls : List ℕ) (ln : ℕ) :
    couplingCount (l1 :: (ls ++ [ln])) 0 = (paths ls l1 ln).length := by
  rw [couplingCount_eq, paths]
  have h0 : qRange 0 l1 = [l1] := by
    have : (qRange 0 l1).Perm [l1] := by
      rw [List.perm_ext_iff_of_nodup (nodup_qRange 0 l1) (List.nodup_singleton _)]
      intro k
      rw [mem_qRange, List.mem_singleton]
      unfold Triangle; omega
    exact List.perm_singleton.1 this
  rw [h0]
  simp only [List.flatMap_cons, List.flatMap_nil, List.append_nil, List.length_map]
  generalize l1 = q
  induction ls generalizing q with
  | nil =>
    rw [List.nil_append, paths, paths, List.length_flatMap]
    have e : ∀ k : ℕ, ((paths [] k 0).map (k :: ·)).length = if k = 0 then 1 else 0 := by
      intro k; rw [paths]; split <;> simp
    simp only [e]
    rw [sum_ite_eq]
    by_cases h : q = ln
    · subst h
      rw [if_pos rfl]
      have : ((qRange q q).filter fun x => decide (x = 0)).Perm [0] := by
        rw [List.perm_ext_iff_of_nodup ((nodup_qRange q q).filter _) (List.nodup_singleton _)]
        intro k
        rw [List.mem_filter, mem_qRange, List.mem_singleton, decide_eq_true_eq]
        unfold Triangle; omega
      rw [this.length_eq]; rfl
    · rw [if_neg h, List.length_nil, List.length_eq_zero_iff, List.filter_eq_nil_iff]
      intro k hk
      rw [mem_qRange] at hk
      unfold Triangle at hk
      simp only [decide_eq_true_eq]
      omega
  | cons l ls ih =>
    rw [List.cons_append, paths, paths, List.length_flatMap, List.length_flatMap]
    simp only [List.length_map, ih]

theorem sum_fin {N : ℕ} (R : List (List ℤ)) (hN : N = R.length) (f : List ℤ → ℝ) :
    ∑ k : Fin N, f (R[(k : ℕ)]'(hN ▸ k.2)) = (R.map f).sum := by
  subst hN
  rw [← List.sum_ofFn]
  congr 1
  apply List.ext_getElem
  · simp
  · intro i h1 h2; simp

theorem projector_aux {C : ℕ → ℕ → ℕ → ℤ → ℤ → ℝ} (hC : CouplingCoefficients C) (l1 : ℕ)
    (ls : List ℕ) (ln : ℕ) (heven : (l1 + ls.sum + ln) % 2 = 0) (ws : List ((ℕ × ℕ) × ℝ))
    (hws : ws.Perm ((visits l1 ls ln).flatMap fun p => writesOf C l1 ls ln p)) (N : ℕ)
    (hN : N = (rowTuples l1 ls ln).length) :
    let P : Matrix (Fin N) (Fin N) ℝ := fun i j => coreAfter ws i j
    P.transpose = P ∧ P * P = P ∧ P.trace = (paths ls l1 ln).length := by
  intro P
  have hent : ∀ i j : Fin N, P i j = entry C l1 ls ln
      ((rowTuples l1 ls ln)[(i : ℕ)]'(hN ▸ i.2)) ((rowTuples l1 ls ln)[(j : ℕ)]'(hN ▸ j.2)) := by
    intro i j
    have hi := seqOf_get l1 ls ln ⟨i, hN ▸ i.2⟩
    have hj := seqOf_get l1 ls ln ⟨j, hN ▸ j.2⟩
    simp only [Fin.getElem_fin] at hi hj
    rw [← core_entry hC l1 ls ln heven ws hws _ _ (List.getElem_mem _) (List.getElem_mem _), hi, hj]
  have hfin : ∀ a b : List ℤ, entry C l1 ls ln a b = ∑ qs ∈ (paths ls l1 ln).toFinset,
      amp C l1 ls ln qs a * amp C l1 ls ln qs b := by
    intro a b
    unfold entry
    rw [List.sum_toFinset _ (nodup_paths ls l1 ln)]
  have hcomm : ∀ (xs : List (List ℤ)) (S : Finset (List ℕ)) (f : List ℤ → List ℕ → ℝ),
      (xs.map fun a => ∑ q ∈ S, f a q).sum = ∑ q ∈ S, (xs.map fun a => f a q).sum := by
    intro xs S f
    induction xs with
    | nil => simp
    | cons x xs ih => simp only [List.map_cons, List.sum_cons, ih, Finset.sum_add_distrib]
  have horth : ∀ qs ∈ (paths ls l1 ln).toFinset, ∀ qs' ∈ (paths ls l1 ln).toFinset,
      ((rowTuples l1 ls ln).map fun a => amp C l1 ls ln qs a * amp C l1 ls ln qs' a).sum =
        if qs = qs' then 1 else 0 := by
    intro qs h qs' h'
    rw [List.mem_toFinset, mem_paths] at h h'
    exact amp_orthonormal hC l1 ls ln qs qs' h h'
  refine ⟨?_, ?_, ?_⟩
  · ext i j
    rw [Matrix.transpose_apply, hent, hent, entry_symm]
  · ext i j
    rw [Matrix.mul_apply]
    simp only [hent]
    rw [sum_fin (rowTuples l1 ls ln) hN fun a =>
      entry C l1 ls ln ((rowTuples l1 ls ln)[(i : ℕ)]'(hN ▸ i.2)) a *
        entry C l1 ls ln a ((rowTuples l1 ls ln)[(j : ℕ)]'(hN ▸ j.2))]
    generalize (rowTuples l1 ls ln)[(i : ℕ)]'(hN ▸ i.2) = u
    generalize (rowTuples l1 ls ln)[(j : ℕ)]'(hN ▸ j.2) = v
    have h1 : ∀ a, entry C l1 ls ln u a * entry C l1 ls ln a v =
        ∑ qs ∈ (paths ls l1 ln).toFinset, ∑ qs' ∈ (paths ls l1 ln).toFinset,
          amp C l1 ls ln qs u * amp C l1 ls ln qs' v *
            (amp C l1 ls ln qs a * amp C l1 ls ln qs' a) := by
      intro a
      rw [hfin, hfin, Finset.sum_mul_sum]
      apply Finset.sum_congr rfl
      intro qs _
      apply Finset.sum_congr rfl
      intro qs' _
      ring
    simp only [h1]
    rw [hcomm, hfin]
    apply Finset.sum_congr rfl
    intro qs hqs
    rw [hcomm]
    have h2 : ∀ qs' ∈ (paths ls l1 ln).toFinset,
        ((rowTuples l1 ls ln).map fun a => amp C l1 ls ln qs u * amp C l1 ls ln qs' v *
            (amp C l1 ls ln qs a * amp C l1 ls ln qs' a)).sum =
          if qs = qs' then amp C l1 ls ln qs u * amp C l1 ls ln qs' v else 0 := by
      intro qs' hqs'
      rw [List.sum_map_mul_left, horth qs hqs qs' hqs']
      split <;> simp
    rw [Finset.sum_congr rfl h2, Finset.sum_ite_eq, if_pos hqs]
  · rw [Matrix.trace]
    simp only [Matrix.diag_apply, hent]
    rw [sum_fin (rowTuples l1 ls ln) hN fun a => entry C l1 ls ln a a]
    simp only [hfin]
    rw [hcomm]
    have h2 : ∀ qs ∈ (paths ls l1 ln).toFinset,
        ((rowTuples l1 ls ln).map fun a => amp C l1 ls ln qs a * amp C l1 ls ln qs a).sum = 1 := by
      intro qs hqs
      rw [horth qs hqs qs hqs, if_pos rfl]
    rw [Finset.sum_congr rfl h2, Finset.sum_const, nsmul_eq_mul, mul_one,
      List.toFinset_card_of_nodup (nodup_paths ls l1 ln)]

/-- C103: the projector is a projector: symmetric, equal to its square, and its trace is the number
of couplings to zero, which is the number of invariants that the enumeration announces; whatever
the order of the parallel writes. -/
theorem C103_projector {C : ℕ → ℕ → ℕ → ℤ → ℤ → ℝ} (hC : CouplingCoefficients C) (l1 : ℕ)
    (ls : List ℕ) (ln : ℕ) (heven : (l1 :: (ls ++ [ln])).sum % 2 = 0) (ws : List ((ℕ × ℕ) × ℝ))
    (hws : ws.Perm ((visits l1 ls ln).flatMap fun p => writesOf C l1 ls ln p)) :
    let P : Matrix (Fin (lmRows l1 ls ln).length) (Fin (lmRows l1 ls ln).length) ℝ :=
      fun i j => coreAfter ws i j
    P.transpose = P ∧ P * P = P ∧
      P.trace = couplingCount (l1 :: (ls ++ [ln])) 0 ∧
      P.trace = numBasis (l1 :: (ls ++ [ln])) 0 := by
  have heven' : (l1 + ls.sum + ln) % 2 = 0 := by
    rw [List.sum_cons, List.sum_append, List.sum_singleton] at heven
    rwa [add_assoc]
  obtain ⟨h1, h2, h3⟩ := projector_aux hC l1 ls ln heven' ws hws _ (lmRows_length l1 ls ln)
  refine ⟨h1, h2, ?_, ?_⟩
  · rw [h3, paths_total]
  · rw [h3, C102_couplings, paths_total]
    simp

/-- C103: any orthonormal basis of the projector that the eigenvalue solver returns has as many
vectors as the enumeration announces. -/
theorem C103_basis {C : ℕ → ℕ → ℕ → ℤ → ℤ → ℝ} (hC : CouplingCoefficients C) (l1 : ℕ)
    (ls : List ℕ) (ln : ℕ) (heven : (l1 :: (ls ++ [ln])).sum % 2 = 0) (ws : List ((ℕ × ℕ) × ℝ))
    (hws : ws.Perm ((visits l1 ls ln).flatMap fun p => writesOf C l1 ls ln p)) (k : ℕ)
    (V : Matrix (Fin (lmRows l1 ls ln).length) (Fin k) ℝ) (hV : V.transpose * V = 1)
    (hP : ∀ i j : Fin (lmRows l1 ls ln).length,
      (V * V.transpose) i j = coreAfter ws i j) :
    (k : ℤ) = numBasis (l1 :: (ls ++ [ln])) 0 := by
  obtain ⟨_, _, _, h⟩ := C103_projector hC l1 ls ln heven ws hws
  change (Matrix.of fun i j => coreAfter ws i j : Matrix (Fin (lmRows l1 ls ln).length)
    (Fin (lmRows l1 ls ln).length) ℝ).trace = _ at h
  have hP' : (Matrix.of fun i j => coreAfter ws i j : Matrix (Fin (lmRows l1 ls ln).length)
      (Fin (lmRows l1 ls ln).length) ℝ) = V * V.transpose := by
    ext i j
    rw [hP]; rfl
  rw [hP', Matrix.trace_mul_comm, hV, Matrix.trace_one, Fintype.card_fin] at h
  exact_mod_cast h

/-! ## Reads of the tables -/

theorem reads_ok (C : ℕ → ℕ → ℕ → ℤ → ℤ → ℝ) (ln : ℕ) (l : ℕ) (ls : List ℕ) :
    ∀ (first : Bool) (frontier : List (ℕ × ℤ)) (state : List (ℕ × ℝ)) (s s' : ℤ) (ms ms' : List ℤ),
      ms ∈ mTuples (l :: ls) → ms' ∈ mTuples (l :: ls) →
      (∀ x ∈ state, (x.1, s) ∈ frontier ∧ (x.1, s') ∈ frontier) →
      |s + ms.sum| ≤ ln → |s' + ms'.sum| ≤ ln →
      ∀ r ∈ cgReads ln (cgTables C ln first frontier (l :: ls)) state s s' (l :: ls) ms ms',
        ∃ e ∈ r.1, e.1 = r.2 := by
  induction ls generalizing l with
  | nil =>
    intro first frontier state s s' ms ms' hms hms' hst hs hs' r hr
    simp only [mTuples, List.map_cons, List.map_nil, List.mem_flatMap, List.mem_singleton] at hms hms'
    obtain ⟨m, hm, rfl⟩ := hms
    obtain ⟨m', hm', rfl⟩ := hms'
    simp only [List.sum_cons, List.sum_nil, add_zero] at hs hs'
    simp only [cgTables, cgReads, List.mem_flatMap, List.mem_cons, List.not_mem_nil, or_false] at hr
    obtain ⟨x, hx, hr⟩ := hr
    obtain ⟨f1, f2⟩ := hst x hx
    rcases hr with rfl | rfl
    · refine ⟨((x.1, ln, s, m), cgOf C first x.1 l ln s m), ?_, rfl⟩
      simp only [List.mem_flatMap]
      refine ⟨(x.1, s), f1, m, hm, ?_⟩
      rw [if_neg (by simpa using hs)]
      exact List.mem_singleton.2 rfl
    · refine ⟨((x.1, ln, s', m'), cgOf C first x.1 l ln s' m'), ?_, rfl⟩
      simp only [List.mem_flatMap]
      refine ⟨(x.1, s'), f2, m', hm', ?_⟩
      rw [if_neg (by simpa using hs')]
      exact List.mem_singleton.2 rfl
  | cons l' ls ih =>
    intro first frontier state s s' ms ms' hms hms' hst hs hs' r hr
    rw [mTuples] at hms hms'
    simp only [List.mem_flatMap, List.mem_map] at hms hms'
    obtain ⟨m, hm, t, ht, rfl⟩ := hms
    obtain ⟨m', hm', t', ht', rfl⟩ := hms'
    rw [List.sum_cons, ← add_assoc] at hs hs'
    simp only [cgTables, cgReads, List.mem_append] at hr
    rcases hr with hr | hr
    · simp only [List.mem_flatMap] at hr
      obtain ⟨x, hx, q', hq', h⟩ := hr
      obtain ⟨f1, f2⟩ := hst x hx
      split at h
      · simp at h
      · rename_i hskip
        rw [not_or, not_lt, not_lt] at hskip
        simp only [List.mem_cons, List.not_mem_nil, or_false] at h
        rcases h with rfl | rfl
        · refine ⟨((x.1, q', s, m), cgOf C first x.1 l q' s m), ?_, rfl⟩
          simp only [List.mem_flatMap]
          refine ⟨(x.1, s), f1, q', hq', m, hm, ?_⟩
          rw [if_neg (by simpa using hskip.1)]
          exact List.mem_singleton.2 rfl
        · refine ⟨((x.1, q', s', m'), cgOf C first x.1 l q' s' m'), ?_, rfl⟩
          simp only [List.mem_flatMap]
          refine ⟨(x.1, s'), f2, q', hq', m', hm', ?_⟩
          rw [if_neg (by simpa using hskip.2)]
          exact List.mem_singleton.2 rfl
    · refine ih l' false _ _ (s + m) (s' + m') t t' ht ht' ?_ hs hs' r hr
      intro y hy
      unfold interProd at hy
      simp only [List.mem_flatMap] at hy
      obtain ⟨x, hx, q', hq', h⟩ := hy
      obtain ⟨f1, f2⟩ := hst x hx
      split at h
      · simp at h
      · rename_i hskip
        rw [not_or, not_lt, not_lt] at hskip
        simp only [List.mem_singleton] at h
        subst h
        exact ⟨mem_frontier C first frontier l x.1 q' s m f1 hq' hm hskip.1,
          mem_frontier C first frontier l x.1 q' s' m' f2 hq' hm' hskip.2⟩

/-- C103: for each pair of rows that the parallel loops visit, every coefficient they read was
stored before the loops, and the rows and their negatives have a number: no thread inserts a key
into a shared table. -/
theorem C103_reads (C : ℕ → ℕ → ℕ → ℤ → ℤ → ℝ) (l1 l : ℕ) (ls : List ℕ) (ln : ℕ) (m m' : ℤ)
    (ms ms' : List ℤ) (hv : (m :: ms, m' :: ms') ∈ visits l1 (l :: ls) ln) :
    (∀ r ∈ cgReads ln (allTables C l1 (l :: ls) ln) [(l1, 1)] m m' (l :: ls) ms ms',
      ∃ e ∈ r.1, e.1 = r.2) ∧
    ∀ a ∈ [m :: ms, m' :: ms', (m :: ms).map (-·), (m' :: ms').map (-·)],
      a ∈ rowTuples l1 (l :: ls) ln := by
  unfold visits at hv
  simp only [List.mem_flatMap, List.mem_map, List.mem_filter, Prod.mk.injEq] at hv
  obtain ⟨x, ⟨hx, hx0⟩, y, ⟨hy, hy0⟩, rfl, rfl⟩ := hv
  constructor
  · obtain ⟨h1, h2⟩ := (mem_rowTuples _ _ _ _).1 hx
    obtain ⟨h1', h2'⟩ := (mem_rowTuples _ _ _ _).1 hy
    have hsplit : ∀ (m : ℤ) (t : List ℤ), m :: t ∈ mTuples (l1 :: l :: ls) →
        m ∈ mRange l1 ∧ t ∈ mTuples (l :: ls) := by
      intro m t ht
      rw [mTuples] at ht
      simp only [List.mem_flatMap, List.mem_map] at ht
      obtain ⟨u, hu, v, hv, e⟩ := ht
      obtain ⟨rfl, rfl⟩ := List.cons.inj e
      exact ⟨hu, hv⟩
    obtain ⟨hm, ht⟩ := hsplit _ _ h1
    obtain ⟨hm', ht'⟩ := hsplit _ _ h1'
    rw [mem_mRange, abs_le] at hm hm'
    have hfr : ∀ m : ℤ, 0 ≤ m → m ≤ l1 →
        (l1, m) ∈ (List.range (l1 + 1)).map fun (m : ℕ) => (l1, (m : ℤ)) := by
      intro m h0 h3
      rw [List.mem_map]
      exact ⟨m.toNat, by rw [List.mem_range]; omega, by rw [Int.toNat_of_nonneg h0]⟩
    refine reads_ok C ln l ls true _ [(l1, 1)] m m' ms ms' ht ht' ?_ (by simpa using h2)
      (by simpa using h2')
    intro z hz
    simp only [List.mem_singleton] at hz
    subst hz
    exact ⟨hfr m (by simpa [firstHalf] using hx0) hm.2, hfr m' (by simpa [firstHalf] using hy0) hm'.2⟩
  · intro a ha
    simp only [List.mem_cons, List.not_mem_nil, or_false] at ha
    rcases ha with rfl | rfl | rfl | rfl
    · exact hx
    · exact hy
    · exact neg_mem_rowTuples _ _ _ _ hx
    · exact neg_mem_rowTuples _ _ _ _ hy

example : ([1, 0, -1], [0, 1, -1]) ∈ visits 1 [1, 1] 1 := by decide

/-! ## Coefficients that meet the hypotheses -/

/-- Coefficients with total component zero: even and odd combinations of `m` and `-m`. -/
noncomputable def zeroCoef (j : ℕ) (m : ℤ) : ℝ :=
  if m.natAbs = (j + 1) / 2 then
    if j = 0 then 1 else (if j % 2 = 1 ∧ m < 0 then -1 else 1) / Real.sqrt 2
  else 0

/-- Coefficients that couple each `l` to one pair of components, if the total is not zero. -/
noncomputable def someCoefficients (l₁ l₂ l : ℕ) (m₁ m₂ : ℤ) : ℝ :=
  open Classical in
  if ¬ Triangle l₁ l₂ l ∨ (l : ℤ) < |m₁ + m₂| then 0
  else if 0 < m₁ + m₂ then
    if m₁ = max (-(l₁ : ℤ)) (m₁ + m₂ - l₂) + (l₁ + l₂ - l : ℕ) then 1 else 0
  else if m₁ + m₂ < 0 then
    if -m₁ = max (-(l₁ : ℤ)) (-m₁ + -m₂ - l₂) + (l₁ + l₂ - l : ℕ) then (-1) ^ (l₁ + l₂ - l) else 0
  else zeroCoef (l₁ + l₂ - l) m₁

theorem zeroCoef_neg (j : ℕ) (m : ℤ) : zeroCoef j (-m) = (-1) ^ j * zeroCoef j m := by
  unfold zeroCoef
  rw [Int.natAbs_neg]
  by_cases h : m.natAbs = (j + 1) / 2
  · rw [if_pos h, if_pos h]
    by_cases h0 : j = 0
    · subst h0; simp
    · rw [if_neg h0, if_neg h0]
      rcases Nat.even_or_odd j with he | ho
      · have : ¬ j % 2 = 1 := by rw [Nat.even_iff] at he; omega
        simp [he.neg_one_pow, this]
      · have h1 := Nat.odd_iff.1 ho
        rw [ho.neg_one_pow]
        by_cases hm : m < 0
        · rw [if_neg (by omega), if_pos ⟨h1, hm⟩]; ring
        · rw [if_pos ⟨h1, by omega⟩, if_neg (by omega)]; ring
  · rw [if_neg h, if_neg h, mul_zero]

theorem zeroCoef_orthonormal (k j j' : ℕ) (hj : j ≤ 2 * k) (hj' : j' ≤ 2 * k) :
    ∑ m ∈ Finset.Icc (-(k : ℤ)) k, zeroCoef j m * zeroCoef j' m = if j = j' then 1 else 0 := by
  have h2 : Real.sqrt 2 * Real.sqrt 2 = 2 := Real.mul_self_sqrt (by norm_num)
  have h20 : Real.sqrt 2 ≠ 0 := by
    intro h; rw [h] at h2; norm_num at h2
  by_cases hp : (j + 1) / 2 = (j' + 1) / 2
  · by_cases h0 : j = 0
    · have h0' : j' = 0 := by omega
      subst h0; subst h0'
      rw [if_pos rfl, Finset.sum_eq_single_of_mem 0]
      · simp [zeroCoef]
      · rw [Finset.mem_Icc]; omega
      · intro m _ hm
        unfold zeroCoef
        rw [if_neg (by omega)]; simp
    · have h0' : j' ≠ 0 := by omega
      have hsub : ({(((j + 1) / 2 : ℕ) : ℤ), -(((j + 1) / 2 : ℕ) : ℤ)} : Finset ℤ) ⊆
          Finset.Icc (-(k : ℤ)) k := by
        intro m hm
        rw [Finset.mem_insert, Finset.mem_singleton] at hm
        rw [Finset.mem_Icc]
        omega
      rw [← Finset.sum_subset hsub]
      · rw [Finset.sum_pair (by omega), zeroCoef_neg, zeroCoef_neg]
        have e1 : ∀ i, (i + 1) / 2 = (j + 1) / 2 → i ≠ 0 →
            zeroCoef i (((j + 1) / 2 : ℕ) : ℤ) = 1 / Real.sqrt 2 := by
          intro i hi hi0
          unfold zeroCoef
          rw [if_pos (by rw [hi, Int.natAbs_natCast]), if_neg hi0, if_neg (by omega)]
        rw [e1 j rfl h0, e1 j' hp.symm h0']
        have e2 : (1 / Real.sqrt 2) * (1 / Real.sqrt 2) = 1 / 2 := by
          rw [div_mul_div_comm, h2]; norm_num
        have e3 : ((-1 : ℝ) ^ j * (1 / Real.sqrt 2)) * ((-1) ^ j' * (1 / Real.sqrt 2)) =
            (-1) ^ (j + j') * (1 / 2) := by
          rw [pow_add, ← e2]; ring
        rw [e2, e3]
        by_cases hjj : j = j'
        · subst hjj
          rw [if_pos rfl, Even.neg_one_pow ⟨j, rfl⟩]; norm_num
        · rw [if_neg hjj, Odd.neg_one_pow (by rw [Nat.odd_iff]; omega)]; norm_num
      · intro m _ hm
        rw [Finset.mem_insert, Finset.mem_singleton, not_or] at hm
        unfold zeroCoef
        rw [if_neg (by omega)]; simp
  · rw [if_neg (by rintro rfl; exact hp rfl)]
    apply Finset.sum_eq_zero
    intro m _
    unfold zeroCoef
    by_cases h : m.natAbs = (j + 1) / 2
    · rw [if_neg (show ¬ m.natAbs = (j' + 1) / 2 by omega), mul_zero]
    · rw [if_neg h, zero_mul]

/-- The hypotheses on the coefficients can be met, for all angular momenta. -/
theorem someCoefficients_ok : CouplingCoefficients someCoefficients := by
  have hin : ∀ l₁ l₂ l (m₁ m₂ : ℤ), Triangle l₁ l₂ l → |m₁ + m₂| ≤ l →
      ¬ (¬ Triangle l₁ l₂ l ∨ (l : ℤ) < |m₁ + m₂|) := by
    intro l₁ l₂ l m₁ m₂ h1 h2 h
    rcases h with h | h
    · exact h h1
    · omega
  refine ⟨?_, ?_, ?_⟩
  · intro l₁ l₂ l m₁ m₂ h
    unfold someCoefficients
    rw [if_pos h]
  · intro l₁ l₂ l m₁ m₂ ht
    have hs : -m₁ + -m₂ = -(m₁ + m₂) := by ring
    unfold someCoefficients
    by_cases hM : |m₁ + m₂| ≤ l
    · rw [if_neg (hin _ _ _ _ _ ht hM), if_neg (hin _ _ _ _ _ ht (by rw [hs, abs_neg]; exact hM))]
      have hsgn : ((-1 : ℝ)) ^ (l₁ + l₂ - l) * (-1) ^ (l₁ + l₂ - l) = 1 := by
        rw [← pow_add, Even.neg_one_pow ⟨_, rfl⟩]
      by_cases h1 : 0 < m₁ + m₂
      · rw [if_neg (by omega), if_pos (by omega), if_pos h1, neg_neg, neg_neg]
        split <;> simp
      · rw [if_neg h1]
        by_cases h2 : m₁ + m₂ < 0
        · rw [if_pos (by omega), if_pos h2]
          split
          · rw [hsgn]
          · simp
        · rw [if_neg (by omega), if_neg (by omega), if_neg h2, zeroCoef_neg]
    · rw [if_pos (Or.inr (by rw [hs, abs_neg]; omega)), if_pos (Or.inr (by omega)), mul_zero]
  · intro l₁ l₂ l l' M ht ht' hM hM'
    have hin2 : ∀ m₁ m₂ : ℤ, (if m₁ + m₂ = M then
        someCoefficients l₁ l₂ l m₁ m₂ * someCoefficients l₁ l₂ l' m₁ m₂ else 0) =
        if m₂ = M - m₁ then
          someCoefficients l₁ l₂ l m₁ (M - m₁) * someCoefficients l₁ l₂ l' m₁ (M - m₁) else 0 := by
      intro m₁ m₂
      by_cases h : m₁ + m₂ = M
      · have : m₂ = M - m₁ := by omega
        rw [if_pos h, if_pos this, this]
      · rw [if_neg h, if_neg (by omega)]
    simp only [hin2, Finset.sum_ite_eq']
    have hcoef : ∀ (k : ℕ) (m : ℤ), Triangle l₁ l₂ k → |M| ≤ k →
        someCoefficients l₁ l₂ k m (M - m) =
          if 0 < M then if m = max (-(l₁ : ℤ)) (M - l₂) + (l₁ + l₂ - k : ℕ) then 1 else 0
          else if M < 0 then
            if -m = max (-(l₁ : ℤ)) (-M - l₂) + (l₁ + l₂ - k : ℕ) then (-1) ^ (l₁ + l₂ - k) else 0
          else zeroCoef (l₁ + l₂ - k) m := by
      intro k m hk hkM
      have e : m + (M - m) = M := by ring
      have e' : -m + -(M - m) = -M := by ring
      unfold someCoefficients
      rw [if_neg (hin _ _ _ _ _ hk (by rw [e]; exact hkM)), e, e']
    have hone : ∀ (a : ℤ) (x : ℝ), a ∈ Finset.Icc (-(l₁ : ℤ)) l₁ → M - a ∈ Finset.Icc (-(l₂ : ℤ)) l₂ →
        (∑ m ∈ Finset.Icc (-(l₁ : ℤ)) l₁, if M - m ∈ Finset.Icc (-(l₂ : ℤ)) l₂ then
          (if m = a then x else 0) else 0) = x := by
      intro a x h1 h2
      rw [Finset.sum_eq_single_of_mem a h1]
      · rw [if_pos h2, if_pos rfl]
      · intro m _ hm
        rw [if_neg hm]; simp
    have hlt := ht; have hlt' := ht'
    unfold Triangle at hlt hlt'
    rw [abs_le] at hM hM'
    have hM2 := hM; have hM2' := hM'
    rw [← abs_le] at hM2 hM2'
    rcases lt_trichotomy M 0 with hneg | hzero | hpos
    · simp only [hcoef l _ ht hM2, hcoef l' _ ht' hM2', if_neg (not_lt.2 hneg.le), if_pos hneg]
      by_cases hll : l = l'
      · subst hll
        rw [if_pos rfl]
        refine Eq.trans ?_ (hone (-(max (-(l₁ : ℤ)) (-M - l₂) + (l₁ + l₂ - l : ℕ))) 1
          (by rw [Finset.mem_Icc]; omega) (by rw [Finset.mem_Icc]; omega))
        apply Finset.sum_congr rfl
        intro m _
        congr 1
        by_cases h : -m = max (-(l₁ : ℤ)) (-M - l₂) + (l₁ + l₂ - l : ℕ)
        · rw [if_pos h, if_pos (by omega), ← pow_add, Even.neg_one_pow ⟨_, rfl⟩]
        · rw [if_neg h, if_neg (by omega), mul_zero]
      · rw [if_neg hll]
        apply Finset.sum_eq_zero
        intro m _
        split
        · by_cases h : -m = max (-(l₁ : ℤ)) (-M - l₂) + (l₁ + l₂ - l : ℕ)
          · rw [if_neg (show ¬ -m = max (-(l₁ : ℤ)) (-M - l₂) + (l₁ + l₂ - l' : ℕ) by omega), mul_zero]
          · rw [if_neg h, zero_mul]
        · rfl
    · subst hzero
      simp only [hcoef l _ ht hM2, hcoef l' _ ht' hM2', lt_irrefl, if_false]
      have hz := zeroCoef_orthonormal (min l₁ l₂) (l₁ + l₂ - l) (l₁ + l₂ - l') (by omega) (by omega)
      have hiff : (l₁ + l₂ - l = l₁ + l₂ - l') ↔ l = l' := by omega
      simp only [hiff] at hz
      rw [← hz]
      have hsub : Finset.Icc (-((min l₁ l₂ : ℕ) : ℤ)) ((min l₁ l₂ : ℕ) : ℤ) ⊆
          Finset.Icc (-(l₁ : ℤ)) l₁ := by
        intro m hm
        rw [Finset.mem_Icc] at *
        omega
      rw [← Finset.sum_subset hsub]
      · apply Finset.sum_congr rfl
        intro m hm
        rw [Finset.mem_Icc] at hm
        rw [if_pos (by rw [Finset.mem_Icc]; omega)]
      · intro m h1 h2
        rw [Finset.mem_Icc] at h1 h2
        rw [if_neg (by rw [Finset.mem_Icc]; omega)]
    · simp only [hcoef l _ ht hM2, hcoef l' _ ht' hM2', if_pos hpos]
      by_cases hll : l = l'
      · subst hll
        rw [if_pos rfl]
        refine Eq.trans ?_ (hone (max (-(l₁ : ℤ)) (M - l₂) + (l₁ + l₂ - l : ℕ)) 1
          (by rw [Finset.mem_Icc]; omega) (by rw [Finset.mem_Icc]; omega))
        apply Finset.sum_congr rfl
        intro m _
        congr 1
        split <;> simp
      · rw [if_neg hll]
        apply Finset.sum_eq_zero
        intro m _
        split
        · by_cases h : m = max (-(l₁ : ℤ)) (M - l₂) + (l₁ + l₂ - l : ℕ)
          · rw [if_neg (show ¬ m = max (-(l₁ : ℤ)) (M - l₂) + (l₁ + l₂ - l' : ℕ) by omega), mul_zero]
          · rw [if_neg h, zero_mul]
        · rfl

/-- The projector of four `l = 1` has trace 3. -/
example (ws : List ((ℕ × ℕ) × ℝ))
    (hws : ws.Perm ((visits 1 [1, 1] 1).flatMap fun p => writesOf someCoefficients 1 [1, 1] 1 p)) :
    (Matrix.of fun i j => coreAfter ws i j : Matrix (Fin (lmRows 1 [1, 1] 1).length)
      (Fin (lmRows 1 [1, 1] 1).length) ℝ).trace = 3 := by
  obtain ⟨_, _, h, _⟩ := C103_projector someCoefficients_ok 1 [1, 1] 1 (by decide) ws hws
  rw [couplingCount_eq] at h
  have : (paths (1 :: ([1, 1] ++ [1])) 0 0).length = 3 := by decide +kernel
  rw [this] at h
  exact_mod_cast h

end Verif.PolyInv
