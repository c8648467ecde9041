import Verif.Model.FeatAttr
import Verif.Spec.FeatAttr
import Verif.Lemmas.MlpMap
import Verif.Lemmas.Dict
import Mathlib.Data.List.Sort

namespace Verif.FeatAttr
open Verif Verif.Mlp

/-! ## Ordered pairs -/

/-- Lexicographic order. -/
def lex (a b : ℕ × ℕ) : Prop := a.1 < b.1 ∨ (a.1 = b.1 ∧ a.2 < b.2)

instance : Std.Antisymm lex := ⟨fun a b h h' => by unfold lex at h h'; omega⟩
instance : Std.Irrefl lex := ⟨fun a h => by unfold lex at h; omega⟩

/-- All ordered pairs in the order of the loops. -/
def square (n : ℕ) : List (ℕ × ℕ) := (List.range n).flatMap fun i => (List.range n).map fun j => (i, j)

theorem mem_square (n : ℕ) (e : ℕ × ℕ) : e ∈ square n ↔ e.1 < n ∧ e.2 < n := by
  obtain ⟨i, j⟩ := e
  simp [square]

theorem square_sorted (n : ℕ) : (square n).Pairwise lex := by
  unfold square
  rw [List.pairwise_flatMap]
  refine ⟨fun i _ => ?_, ?_⟩
  · rw [List.pairwise_map]
    exact List.pairwise_lt_range.imp fun h => Or.inr ⟨rfl, h⟩
  · refine List.pairwise_lt_range.imp ?_
    intro i i' h x hx y hy
    rw [List.mem_map] at hx hy
    obtain ⟨_, _, rfl⟩ := hx
    obtain ⟨_, _, rfl⟩ := hy
    exact Or.inl h

theorem square_le (n : ℕ) : (square n).filter (fun e => e.1 ≤ e.2) = allPairs n := by
  have h1 : (allPairs n).Pairwise lex := by
    unfold allPairs
    rw [List.pairwise_flatMap]
    refine ⟨fun i _ => ?_, ?_⟩
    · rw [List.pairwise_map]
      exact (List.pairwise_lt_range').imp fun h => Or.inr ⟨rfl, h⟩
    · refine List.pairwise_lt_range.imp ?_
      intro i i' h x hx y hy
      rw [List.mem_map] at hx hy
      obtain ⟨_, _, rfl⟩ := hx
      obtain ⟨_, _, rfl⟩ := hy
      exact Or.inl h
  have h2 := (square_sorted n).filter (fun e => decide (e.1 ≤ e.2))
  refine List.Perm.eq_of_pairwise' h2 h1 ?_
  rw [List.perm_ext_iff_of_nodup h2.nodup h1.nodup]
  rintro ⟨i, j⟩
  rw [List.mem_filter, mem_square, mem_allPairs]
  simp only [decide_eq_true_eq]
  omega

theorem pairs_sum (n : ℕ) : ∀ k ≤ n,
    2 * ((List.range k).map fun i => n - i).sum = k * (2 * n + 1 - k) := by
  intro k
  induction k with
  | zero => simp
  | succ k ih =>
    intro hk
    have := ih (by omega)
    rw [List.range_succ, List.map_append, List.sum_append, Nat.mul_add, this]
    simp only [List.map_cons, List.map_nil, List.sum_cons, List.sum_nil, Nat.add_zero]
    obtain ⟨d, rfl⟩ := Nat.exists_eq_add_of_le hk
    have e1 : 2 * (k + 1 + d) + 1 - k = k + 2 * d + 3 := by omega
    have e2 : k + 1 + d - k = d + 1 := by omega
    have e3 : 2 * (k + 1 + d) + 1 - (k + 1) = k + 2 * d + 2 := by omega
    rw [e1, e2, e3]
    ring

theorem allPairs_length (n : ℕ) : (allPairs n).length = n * (n + 1) / 2 := by
  have h := pairs_sum n n le_rfl
  have h2 : (allPairs n).length = ((List.range n).map fun i => n - i).sum := by
    unfold allPairs
    rw [List.length_flatMap]
    simp
  rw [h2]
  have : 2 * n + 1 - n = n + 1 := by omega
  rw [this] at h
  omega

/-! ## The table of pairs -/

section Pairs
variable (n : ℕ) (cond : ℕ → ℕ → List ℕ)

/-- Number of an ordered pair. -/
def tpOf (e : ℕ × ℕ) : ℕ := (setTypePairs n cond).typePairs e.1 e.2

theorem tpOf_eq {e f : ℕ × ℕ} (he : e ∈ square n) (hf : f ∈ square n) :
    tpOf n cond e = tpOf n cond f ↔ e = f ∨ e = (f.2, f.1) := by
  rw [mem_square] at he hf
  obtain ⟨i, j⟩ := e
  obtain ⟨k, l⟩ := f
  simp only at he hf
  have h1 := allPairs_typePairs n cond he.1 he.2
  have h2 := allPairs_typePairs n cond hf.1 hf.2
  unfold tpOf
  simp only [Prod.mk.injEq]
  constructor
  · intro h
    rw [h, h2] at h1
    simp only [Option.some.injEq, Prod.mk.injEq] at h1
    omega
  · rintro (⟨rfl, rfl⟩ | ⟨rfl, rfl⟩)
    · rfl
    · exact typePairs_symm n cond he.1 he.2

theorem pairDict_fold : pairDict n (setTypePairs n cond).typePairs =
    (square n).foldl (fun (d : Dict ℕ (List (ℕ × ℕ))) e => d.set (tpOf n cond e) ((d.get? (tpOf n cond e)).getD [] ++ [e])) [] := by
  unfold pairDict square
  rw [foldl_flatMap'']
  simp only [List.foldl_map]
  rfl

theorem get?_map {α β : Type} (f : α → ℕ) (g : α → β) (l : List α) (x : α) (hx : x ∈ l)
    (hg : ∀ y ∈ l, f y = f x → g y = g x) :
    Dict.get? (l.map fun a => (f a, g a)) (f x) = some (g x) := by
  unfold Dict.get?
  induction l with
  | nil => simp at hx
  | cons a l ih =>
    rw [List.map_cons, List.find?_cons]
    by_cases h : f a = f x
    · simp only [h, decide_true, Option.map_some]
      rw [hg a (by simp) h]
    · simp only [h, decide_false]
      refine ih ?_ fun y hy => hg y (by simp [hy])
      rcases List.mem_cons.1 hx with rfl | hx
      · exact absurd rfl h
      · exact hx

theorem pairDict_prefix : ∀ (P S : List (ℕ × ℕ)), P ++ S = square n →
    P.foldl (fun (d : Dict ℕ (List (ℕ × ℕ))) e => d.set (tpOf n cond e) ((d.get? (tpOf n cond e)).getD [] ++ [e])) [] =
      (P.filter fun e => e.1 ≤ e.2).map
        fun e => (tpOf n cond e, P.filter fun f => tpOf n cond f = tpOf n cond e) := by
  intro P
  induction P using List.reverseRecOn with
  | nil => intro S _; rfl
  | append_singleton P e ih =>
    intro S hS
    have hS' : P ++ e :: S = square n := by rw [← hS]; simp
    have ihP := ih (e :: S) hS'
    have hsort := square_sorted n
    rw [← hS', List.pairwise_append, List.pairwise_cons] at hsort
    obtain ⟨-, ⟨hlt, -⟩, hPe⟩ := hsort
    have hmem : ∀ x, x ∈ P → x ∈ square n := fun x hx => by rw [← hS']; simp [hx]
    have he : e ∈ square n := by rw [← hS']; simp
    rw [List.foldl_append, List.foldl_cons, List.foldl_nil, ihP]
    have hkey : ∀ x ∈ P, tpOf n cond x = tpOf n cond e → x = (e.2, e.1) := by
      intro x hx h
      rcases (tpOf_eq n cond (hmem x hx) he).1 h with rfl | h
      · have := hPe x hx x (by simp)
        unfold lex at this; omega
      · exact h
    by_cases hle : e.1 ≤ e.2
    · have hno : ∀ x ∈ P, tpOf n cond x ≠ tpOf n cond e := by
        intro x hx h
        have h1 := hkey x hx h
        have h2 := hPe x hx e (by simp)
        rw [h1] at h2
        unfold lex at h2
        simp only at h2
        omega
      have hany : (((P.filter fun e => e.1 ≤ e.2).map
          fun x => (tpOf n cond x, P.filter fun f => tpOf n cond f = tpOf n cond x)).any
            fun p => p.1 = tpOf n cond e) = false := by
        rw [List.any_eq_false]
        intro p hp
        rw [List.mem_map] at hp
        obtain ⟨x, hx, rfl⟩ := hp
        simpa using hno x (List.mem_filter.1 hx).1
      have hget : Dict.get? ((P.filter fun e => e.1 ≤ e.2).map
          fun x => (tpOf n cond x, P.filter fun f => tpOf n cond f = tpOf n cond x)) (tpOf n cond e) =
            none := by
        rw [Dict.get?, Option.map_eq_none_iff, List.find?_eq_none]
        rw [List.any_eq_false] at hany
        exact hany
      unfold Dict.set
      rw [hany, hget]
      simp only [Bool.false_eq_true, if_false, Option.getD_none, List.nil_append]
      rw [List.filter_append, List.filter_cons_of_pos (by simpa using hle), List.filter_nil,
        List.map_append]
      congr 1
      · refine List.map_congr_left fun x hx => ?_
        have hx' := (List.mem_filter.1 hx).1
        rw [List.filter_append, List.filter_cons_of_neg (by simpa using (hno x hx').symm)]
        simp
      · rw [List.map_cons, List.map_nil, List.filter_append, List.filter_cons_of_pos (by simp),
          List.filter_eq_nil_iff.2 fun x hx => by simpa using hno x hx]
        rfl
    · have hrev : (e.2, e.1) ∈ P := by
        have h1 : (e.2, e.1) ∈ square n := by
          rw [mem_square] at he ⊢; exact ⟨he.2, he.1⟩
        rw [← hS', List.mem_append, List.mem_cons] at h1
        rcases h1 with h1 | h1 | h1
        · exact h1
        · exfalso
          have := congrArg Prod.fst h1
          simp only at this
          omega
        · have := hlt _ h1
          unfold lex at this
          simp only at this
          omega
      have htp : tpOf n cond (e.2, e.1) = tpOf n cond e :=
        (tpOf_eq n cond (hmem _ hrev) he).2 (Or.inr rfl)
      have hin : (e.2, e.1) ∈ P.filter fun e => e.1 ≤ e.2 := by
        rw [List.mem_filter]; exact ⟨hrev, by simp; omega⟩
      have hany : (((P.filter fun e => e.1 ≤ e.2).map
          fun x => (tpOf n cond x, P.filter fun f => tpOf n cond f = tpOf n cond x)).any
            fun p => p.1 = tpOf n cond e) = true := by
        rw [List.any_eq_true]
        exact ⟨_, List.mem_map.2 ⟨_, hin, rfl⟩, by simpa using htp⟩
      have hget : Dict.get? ((P.filter fun e => e.1 ≤ e.2).map
          fun x => (tpOf n cond x, P.filter fun f => tpOf n cond f = tpOf n cond x)) (tpOf n cond e) =
            some (P.filter fun f => tpOf n cond f = tpOf n cond e) := by
        rw [← htp]
        refine get?_map (tpOf n cond) (fun x => P.filter fun f => tpOf n cond f = tpOf n cond x) _ _ hin ?_
        intro y _ hy
        simp only [hy]
      unfold Dict.set
      rw [hany, hget]
      simp only [if_true, Option.getD_some]
      rw [List.filter_append, List.filter_cons_of_neg (by simpa using hle), List.filter_nil,
        List.append_nil, List.map_map]
      refine List.map_congr_left fun x hx => ?_
      simp only [Function.comp]
      by_cases hxe : tpOf n cond x = tpOf n cond e
      · rw [if_pos hxe, hxe, List.filter_append, List.filter_cons_of_pos (by simp)]
        rfl
      · rw [if_neg hxe, List.filter_append, List.filter_cons_of_neg (by simpa using Ne.symm hxe)]
        simp

theorem pairDict_eq : pairDict n (setTypePairs n cond).typePairs =
    (allPairs n).map fun e =>
      (tpOf n cond e, (square n).filter fun f => tpOf n cond f = tpOf n cond e) := by
  rw [pairDict_fold, pairDict_prefix n cond (square n) [] (by simp), square_le]

theorem tpOf_get {k : ℕ} {e : ℕ × ℕ} (h : (allPairs n)[k]? = some e) : tpOf n cond e = k :=
  (typePairs_of_get n cond (k := k) (i := e.1) (j := e.2) h).1

/-- The ordered pairs of an unordered pair. -/
def both (e : ℕ × ℕ) : List (ℕ × ℕ) := if e.1 = e.2 then [e] else [e, (e.2, e.1)]

theorem filter_both {e : ℕ × ℕ} (he : e ∈ allPairs n) :
    (square n).filter (fun f => tpOf n cond f = tpOf n cond e) = both e := by
  have he' := (mem_allPairs n e.1 e.2).1 he
  have hes : e ∈ square n := (mem_square n e).2 (by omega)
  have h1 : (both e).Pairwise lex := by
    unfold both
    split_ifs with h
    · simp
    · simp [lex]; omega
  have h2 := (square_sorted n).filter (fun f => decide (tpOf n cond f = tpOf n cond e))
  refine List.Perm.eq_of_pairwise' h2 h1 ?_
  rw [List.perm_ext_iff_of_nodup h2.nodup h1.nodup]
  intro f
  rw [List.mem_filter]
  simp only [decide_eq_true_eq]
  have : f ∈ both e ↔ f = e ∨ f = (e.2, e.1) := by
    unfold both
    split_ifs with h
    · rw [List.mem_singleton]
      constructor
      · exact Or.inl
      · rintro (rfl | rfl)
        · rfl
        · exact Prod.ext h.symm h
    · simp
  rw [this]
  constructor
  · rintro ⟨hf, h⟩; exact (tpOf_eq n cond hf hes).1 h
  · intro h
    have hf : f ∈ square n := by
      rcases h with rfl | rfl
      · exact hes
      · rw [mem_square] at hes ⊢; exact ⟨hes.2, hes.1⟩
    exact ⟨hf, (tpOf_eq n cond hf hes).2 h⟩

theorem pairDict_get (k : ℕ) : (pairDict n (setTypePairs n cond).typePairs)[k]? =
    (allPairs n)[k]?.map fun e => (k, both e) := by
  rw [pairDict_eq, List.getElem?_map]
  cases h : (allPairs n)[k]? with
  | none => rfl
  | some e =>
    rw [Option.map_some, Option.map_some, tpOf_get n cond h,
      ← filter_both n cond (List.mem_of_getElem? h), tpOf_get n cond h]

theorem belongs_iff (t u tp : ℕ) : Spec.Belongs (pairDict n (setTypePairs n cond).typePairs) t u tp ↔
    t < n ∧ u < n ∧ (setTypePairs n cond).typePairs t u = tp := by
  unfold Spec.Belongs
  rw [pairDict_eq]
  constructor
  · rintro ⟨q, hq, rfl, h⟩
    rw [List.mem_map] at hq
    obtain ⟨e, he, rfl⟩ := hq
    rw [List.mem_filter, mem_square] at h
    exact ⟨h.1.1, h.1.2, of_decide_eq_true h.2⟩
  · rintro ⟨ht, hu, rfl⟩
    have h := allPairs_typePairs n cond ht hu
    refine ⟨_, List.mem_map.2 ⟨_, List.mem_of_getElem? h, rfl⟩, tpOf_get n cond h, ?_⟩
    rw [List.mem_filter, mem_square]
    refine ⟨⟨ht, hu⟩, ?_⟩
    rw [tpOf_get n cond h]
    simp [tpOf]

end Pairs

end Verif.FeatAttr
