import Verif.Spec.Disorder
import Verif.Props.GridSearch
import Verif.Props.Phonopy
import Mathlib.Data.List.Perm.Basic
import Mathlib.Tactic.Linarith

/-! # Random structures of disordered models (C92) -/

namespace Verif.Disorder
open Verif.Spec Verif.Spec.GridSearch Verif.StrUtils Verif.GridSearch

variable {K : Type}

/-- All sites with the elements and types they get. -/
def pairs (d : Ids) : List (ℕ × (String × ℕ)) := d.flatMap fun k => k.2.map fun i => (i, k.1)

theorem pairs_extend (d : Ids) (k : String × ℕ) (l : List ℕ) :
    (pairs (extend d k l)).Perm (pairs d ++ l.map fun i => (i, k)) := by
  induction d with
  | nil => simp [extend, pairs]
  | cons a d ih =>
    obtain ⟨k', l'⟩ := a
    unfold extend
    split
    · rename_i h
      subst h
      simp only [pairs, List.flatMap_cons, List.map_append, List.append_assoc]
      exact List.Perm.append_left _ List.perm_append_comm
    · simp only [pairs, List.flatMap_cons, List.append_assoc]
      exact List.Perm.append_left _ ih

theorem keys_extend (d : Ids) (k : String × ℕ) (l : List ℕ) (x : String × ℕ) :
    x ∈ (extend d k l).map (·.1) ↔ x ∈ d.map (·.1) ∨ x = k := by
  induction d with
  | nil => simp [extend]
  | cons a d ih =>
    obtain ⟨k', l'⟩ := a
    unfold extend
    split
    · rename_i h
      subst h
      simp only [List.map_cons, List.mem_cons]
      tauto
    · simp only [List.map_cons, List.mem_cons, ih]
      tauto

theorem nodup_extend (d : Ids) (k : String × ℕ) (l : List ℕ) (h : (d.map (·.1)).Nodup) :
    ((extend d k l).map (·.1)).Nodup := by
  induction d with
  | nil => simp [extend]
  | cons a d ih =>
    obtain ⟨k', l'⟩ := a
    rw [List.map_cons, List.nodup_cons] at h
    unfold extend
    split
    · rw [List.map_cons, List.nodup_cons]
      exact h
    · rename_i hk
      rw [List.map_cons, List.nodup_cons, keys_extend]
      refine ⟨?_, ih h.2⟩
      rintro (h1 | h1)
      · exact h.1 h1
      · exact hk h1

theorem mem_sitesOf (d : Ids) (k : String × ℕ) (i : ℕ) (h : (d.map (·.1)).Nodup) : i ∈ sitesOf d k ↔ (i, k) ∈ pairs d := by
  induction d with
  | nil => simp [sitesOf, pairs]
  | cons a d ih =>
    obtain ⟨k', l'⟩ := a
    rw [List.map_cons, List.nodup_cons] at h
    have ih := ih h.2
    unfold sitesOf at ih ⊢
    rw [List.lookup_cons]
    by_cases hk : k = k'
    · subst hk
      simp only [beq_self_eq_true, Option.getD_some, pairs, List.flatMap_cons, List.mem_append, List.mem_map, Prod.mk.injEq,
        and_true, exists_eq_right]
      refine ⟨Or.inl, ?_⟩
      rintro (h1 | h1)
      · exact h1
      · exfalso
        rw [List.mem_flatMap] at h1
        obtain ⟨x, hx, h2⟩ := h1
        rw [List.mem_map] at h2
        obtain ⟨j, -, h3⟩ := h2
        have : x.1 = k := (Prod.mk.inj h3).2
        exact h.1 (List.mem_map.2 ⟨x, hx, this⟩)
    · have : (k == k') = false := by simpa using hk
      rw [this]
      simp only [pairs, List.flatMap_cons, List.mem_append, List.mem_map, Prod.mk.injEq]
      rw [ih]
      refine ⟨Or.inr, ?_⟩
      rintro (⟨_, -, -, h1⟩ | h1)
      · exact absurd h1.symm hk
      · exact h1

/-! ## One sublattice -/

/-- What a sublattice holds. -/
def content (occ : List (String × ℕ × ℚ)) (ks : List ℤ) : List (String × ℕ) :=
  (occ.zip ks).flatMap fun x => List.replicate x.2.toNat (x.1.1, x.1.2.1)

theorem filter_sub {cand sub : List ℕ} (hc : cand.Nodup) (hs : sub.Subperm cand) :
    (cand.filter fun i => decide (i ∉ sub)).length = cand.length - sub.length ∧
    (sub ++ cand.filter fun i => decide (i ∉ sub)).Perm cand := by
  have hsn : sub.Nodup := by
    obtain ⟨l, hl, hl'⟩ := hs
    exact (List.Perm.nodup_iff hl).1 (hc.sublist hl')
  have hp : (sub ++ cand.filter fun i => decide (i ∉ sub)).Perm cand := by
    rw [List.perm_ext_iff_of_nodup ?_ hc]
    · intro a
      rw [List.mem_append, List.mem_filter, decide_eq_true_eq]
      constructor
      · rintro (h | h)
        · exact hs.subset h
        · exact h.1
      · intro h
        by_cases ha : a ∈ sub
        · exact Or.inl ha
        · exact Or.inr ⟨h, ha⟩
    · rw [List.nodup_append]
      refine ⟨hsn, hc.filter _, ?_⟩
      intro a ha b hb
      rw [List.mem_filter, decide_eq_true_eq] at hb
      rintro rfl
      exact hb.2 ha
  refine ⟨?_, hp⟩
  have := hp.length_eq
  rw [List.length_append] at this
  omega

theorem samples_spec (r : Rand) (hr : FairRand r) (c : ℕ) (cand : List ℕ) (k : ℤ) (h0 : 0 ≤ k) (hk : k ≤ cand.length) :
    ∃ c' l, samples r c cand k = .ok (c', l) ∧ l.Subperm cand ∧ l.length = k.toNat := by
  unfold samples
  split
  · rename_i h
    exact ⟨c, cand, rfl, List.Subperm.refl _, by omega⟩
  · rw [if_neg (by omega)]
    have := hr.pick c cand k.toNat (by omega)
    exact ⟨_, _, rfl, this.1, this.2⟩

theorem samples_over (r : Rand) (c : ℕ) (cand : List ℕ) (k : ℤ) (hk : (cand.length : ℤ) < k) :
    samples r c cand k = .error .valueError := by
  unfold samples
  rw [if_neg (by omega), if_pos (by omega)]

theorem counts_nonneg {n : ℕ} {occ : List (String × ℕ × ℚ)} {ks : List ℤ} (h : SiteCounts n occ ks)
    (hp : ∀ o ∈ occ, 0 ≤ o.2.2) : ∀ k ∈ ks, 0 ≤ k := by
  induction h with
  | nil => simp
  | @cons o k occ ks h1 _ ih =>
    intro k' hk'
    rcases List.mem_cons.1 hk' with h2 | h2
    · subst h2
      have h3 : 0 ≤ (n : ℚ) * o.2.2 := mul_nonneg (Nat.cast_nonneg _) (hp o List.mem_cons_self)
      have h4 := (abs_le.1 h1.1).2
      by_contra hneg
      have : (k' : ℚ) ≤ -1 := by exact_mod_cast (by omega : k' ≤ -1)
      linarith
    · exact ih (fun o ho => hp o (List.mem_cons_of_mem _ ho)) _ h2

theorem counts_exist (n : ℕ) (occ : List (String × ℕ × ℚ)) : SiteCounts n occ (occ.map fun o => rint (n * o.2.2)) := by
  unfold SiteCounts
  rw [List.forall₂_map_right_iff, List.forall₂_same]
  intro o _
  exact rint_nearest _

theorem counts_unique {n : ℕ} {occ : List (String × ℕ × ℚ)} {ks : List ℤ} (h : SiteCounts n occ ks) :
    ks = occ.map fun o => rint (n * o.2.2) := by
  induction h with
  | nil => rfl
  | cons h1 _ ih => rw [List.map_cons, ← ih, nearest_iff.1 h1]

/-- One more element. -/
theorem step_inv (r : Rand) (hr : FairRand r) {d : Ids} {cand l : List ℕ} {key : String × ℕ} (hd : (d.map (·.1)).Nodup)
    (hc : cand.Nodup) (hdis : ∀ i ∈ cand, ∀ k, (i, k) ∉ pairs d) (hl : l.Subperm cand) (cand' : List ℕ)
    (hcand : cand' = r.order (cand.filter fun i => decide (i ∉ sitesOf (extend d key l) key))) :
    cand'.Nodup ∧ cand'.length + l.length = cand.length ∧ (l ++ cand').Perm cand ∧
    (∀ i ∈ cand', ∀ k, (i, k) ∉ pairs (extend d key l)) := by
  have hmem : ∀ i ∈ cand, (i ∉ sitesOf (extend d key l) key ↔ i ∉ l) := by
    intro i hi
    rw [mem_sitesOf _ _ _ (nodup_extend d key l hd), (pairs_extend d key l).mem_iff, List.mem_append, List.mem_map]
    have := hdis i hi key
    simp [this]
  have hf : (cand.filter fun i => decide (i ∉ sitesOf (extend d key l) key)) = cand.filter fun i => decide (i ∉ l) :=
    List.filter_congr fun i hi => by simp only [hmem i hi]
  rw [hf] at hcand
  have ho := hr.order (cand.filter fun i => decide (i ∉ l))
  rw [← hcand] at ho
  obtain ⟨h1, h2⟩ := filter_sub hc hl
  have hle := hl.length_le
  refine ⟨(List.Perm.nodup_iff ho).2 (hc.filter _), ?_, (List.Perm.append_left _ ho).trans h2, ?_⟩
  · rw [ho.length_eq, h1]
    omega
  · intro i hi k
    rw [ho.mem_iff, List.mem_filter, decide_eq_true_eq] at hi
    rw [(pairs_extend d key l).mem_iff, List.mem_append, List.mem_map]
    rintro (h | ⟨j, hj, h⟩)
    · exact hdis i hi.1 k h
    · have := (Prod.mk.inj h).1
      subst this
      exact hi.2 hj

theorem fillSub_spec (r : Rand) (hr : FairRand r) (n : ℕ) (occ : List (String × ℕ × ℚ)) (ks : List ℤ) (hk : SiteCounts n occ ks)
    (h0 : ∀ k ∈ ks, 0 ≤ k) : ∀ (cand : List ℕ) (c : ℕ) (d : Ids), (d.map (·.1)).Nodup → cand.Nodup →
      (∀ i ∈ cand, ∀ k, (i, k) ∉ pairs d) → ks.sum ≤ cand.length →
      ∃ c' d' Q, fillSub r n occ cand (c, d) = .ok (c', d') ∧ (d'.map (·.1)).Nodup ∧ (pairs d').Perm (pairs d ++ Q) ∧
        (Q.map (·.1)).Subperm cand ∧ Q.map (·.2) = content occ ks := by
  unfold SiteCounts at hk
  induction hk with
  | nil =>
    intro cand c d hd _ _ _
    exact ⟨c, d, [], rfl, hd, by simp, by simp, rfl⟩
  | @cons o k occ ks h1 _ ih =>
    intro cand c d hd hc hdis hsum
    obtain ⟨e, t, p⟩ := o
    have hk0 := h0 k List.mem_cons_self
    have hks : ∀ k ∈ ks, 0 ≤ k := fun k hk => h0 k (List.mem_cons_of_mem _ hk)
    have hnn : 0 ≤ ks.sum := List.sum_nonneg hks
    rw [List.sum_cons] at hsum
    obtain ⟨c1, l, e1, hl, hlen⟩ := samples_spec r hr c cand k hk0 (by omega)
    obtain ⟨i1, i2, i3, i4⟩ := step_inv (key := (e, t)) r hr hd hc hdis hl _ rfl
    obtain ⟨c', d', Q, e2, j1, j2, j3, j4⟩ := ih hks _ c1 (extend d (e, t) l) (nodup_extend d (e, t) l hd) i1 i4 (by omega)
    refine ⟨c', d', l.map (fun i => (i, (e, t))) ++ Q, ?_, j1, ?_, ?_, ?_⟩
    · have hk' : rint (n * p) = k := (nearest_iff.1 h1).symm
      unfold fillSub
      simp only [bind, Except.bind, hk', e1]
      exact e2
    · refine j2.trans ?_
      rw [← List.append_assoc]
      exact List.Perm.append_right _ (pairs_extend d (e, t) l)
    · rw [List.map_append, List.map_map]
      have : l.map ((fun x : ℕ × (String × ℕ) => x.1) ∘ fun i => (i, (e, t))) = l := by
        simp [Function.comp_def]
      rw [this]
      exact ((List.subperm_append_left l).2 j3).trans i3.subperm
    · rw [List.map_append, j4, List.map_map]
      simp only [Function.comp_def, List.map_const', content, List.zip_cons_cons, List.flatMap_cons, hlen]

theorem fillSub_over (r : Rand) (hr : FairRand r) (n : ℕ) (occ : List (String × ℕ × ℚ)) (ks : List ℤ) (hk : SiteCounts n occ ks)
    (h0 : ∀ k ∈ ks, 0 ≤ k) : ∀ (cand : List ℕ) (c : ℕ) (d : Ids), (d.map (·.1)).Nodup → cand.Nodup →
      (∀ i ∈ cand, ∀ k, (i, k) ∉ pairs d) → (cand.length : ℤ) < ks.sum →
      fillSub r n occ cand (c, d) = .error .valueError := by
  unfold SiteCounts at hk
  induction hk with
  | nil =>
    intro cand c d _ _ _ h
    simp at h
    omega
  | @cons o k occ ks h1 _ ih =>
    intro cand c d hd hc hdis hsum
    obtain ⟨e, t, p⟩ := o
    have hk0 := h0 k List.mem_cons_self
    have hks : ∀ k ∈ ks, 0 ≤ k := fun k hk => h0 k (List.mem_cons_of_mem _ hk)
    have hk' : rint (n * p) = k := (nearest_iff.1 h1).symm
    rw [List.sum_cons] at hsum
    unfold fillSub
    simp only [bind, Except.bind, hk']
    by_cases hle : k ≤ cand.length
    · obtain ⟨c1, l, e1, hl, hlen⟩ := samples_spec r hr c cand k hk0 hle
      obtain ⟨i1, i2, i3, i4⟩ := step_inv (key := (e, t)) r hr hd hc hdis hl _ rfl
      rw [e1]
      exact ih hks (r.order (cand.filter fun i => decide (i ∉ sitesOf (extend d (e, t) l) (e, t)))) c1 (extend d (e, t) l) (nodup_extend d (e, t) l hd) i1 i4 (by omega)
    · rw [samples_over r c cand k (by omega)]

/-! ## All sublattices -/

theorem perm_lift {α β : Type} {Q : List (α × β)} {l : List α} (h : (Q.map (·.1)).Perm l) :
    ∃ vs : List β, vs.length = l.length ∧ (l.zip vs).Perm Q ∧ vs.Perm (Q.map (·.2)) := by
  have h1 : List.Forall₂ (fun a (q : α × β) => a = q.1) (Q.map (·.1)) Q := by
    rw [List.forall₂_map_left_iff, List.forall₂_same]
    intros
    rfl
  obtain ⟨Q', h2, h3⟩ := List.perm_comp_forall₂ h.symm h1
  have h4 : l = Q'.map (·.1) := by
    clear h3 h1 h
    induction h2 with
    | nil => rfl
    | cons h1 _ ih => rw [List.map_cons, ← ih, h1]
  refine ⟨Q'.map (·.2), ?_, ?_, h3.map _⟩
  · rw [h4, List.length_map, List.length_map]
  · have : l.zip (Q'.map (·.2)) = Q' := by
      rw [h4]
      clear h3 h1 h h2 h4
      induction Q' with
      | nil => rfl
      | cons a Q' ih => rw [List.map_cons, List.map_cons, List.zip_cons_cons, ih]
    rw [this]
    exact h3

theorem subperm_full {l cand : List ℕ} (h : l.Subperm cand) (hl : cand.length ≤ l.length) : l.Perm cand := h.perm_of_length_le hl

theorem content_length {n : ℕ} {occ : List (String × ℕ × ℚ)} {ks : List ℤ} (h : SiteCounts n occ ks) (h0 : ∀ k ∈ ks, 0 ≤ k) :
    ((content occ ks).length : ℤ) = ks.sum := by
  unfold SiteCounts at h
  induction h with
  | nil => rfl
  | @cons o k occ ks _ _ ih =>
    have hk := h0 k List.mem_cons_self
    have ih := ih fun k hk => h0 k (List.mem_cons_of_mem _ hk)
    unfold content at ih ⊢
    rw [List.zip_cons_cons, List.flatMap_cons, List.length_append, List.length_replicate, List.sum_cons, Nat.cast_add, ih]
    omega

theorem fill_spec (r : Rand) (hr : FairRand r) : ∀ (occs : List (List (String × ℕ × ℚ))) (ns : List ℕ) (b c : ℕ) (d : Ids),
    ns.length = occs.length → (∀ x ∈ ns.zip occs, Fills x.1 x.2) → (∀ o ∈ occs.flatten, 0 ≤ o.2.2) → (d.map (·.1)).Nodup →
    (∀ x ∈ pairs d, x.1 < b) →
    ∃ c' d' sites, fill r occs ns b (c, d) = .ok (c', d') ∧ (d'.map (·.1)).Nodup ∧ sites.length = ns.sum ∧
      Occupation ns occs sites ∧ (pairs d').Perm (pairs d ++ (List.range' b ns.sum).zip sites) := by
  intro occs
  induction occs with
  | nil =>
    intro ns b c d hlen _ _ hd _
    have : ns = [] := List.length_eq_zero_iff.1 hlen
    subst this
    exact ⟨c, d, [], rfl, hd, rfl, rfl, by simp⟩
  | cons occ occs ih =>
    intro ns b c d hlen hf hp hd hb
    cases ns with
    | nil => simp at hlen
    | cons n ns =>
      obtain ⟨ks, hk, hsum⟩ := hf (n, occ) (by simp)
      have hp1 : ∀ o ∈ occ, 0 ≤ o.2.2 := fun o ho => hp o (by rw [List.flatten_cons]; exact List.mem_append_left _ ho)
      have h0 := counts_nonneg hk hp1
      obtain ⟨c1, d1, Q, e1, i1, i2, i3, i4⟩ := fillSub_spec r hr n occ ks hk h0 (List.range' b n) c d hd (List.nodup_range')
        (by
          intro i hi k hik
          have := hb _ hik
          rw [List.mem_range'_1] at hi
          simp only at this
          omega) (by rw [List.length_range', hsum])
      have hQ : (Q.map (·.1)).Perm (List.range' b n) := by
        apply subperm_full i3
        have := content_length hk h0
        rw [← i4, hsum, List.length_map] at this
        rw [List.length_range', List.length_map]
        omega
      obtain ⟨vs, v1, v2, v3⟩ := perm_lift hQ
      rw [List.length_range'] at v1
      have hd1 : ∀ x ∈ pairs d1, x.1 < b + n := by
        intro x hx
        rw [i2.mem_iff, List.mem_append] at hx
        rcases hx with hx | hx
        · have := hb x hx
          omega
        · have : x.1 ∈ List.range' b n := hQ.mem_iff.1 (List.mem_map.2 ⟨x, hx, rfl⟩)
          rw [List.mem_range'_1] at this
          omega
      obtain ⟨c', d', sites, e2, j1, j2, j3, j4⟩ := ih ns (b + n) c1 d1 (by simpa using hlen)
        (fun x hx => hf x (by rw [List.zip_cons_cons]; exact List.mem_cons_of_mem _ hx))
        (fun o ho => hp o (by rw [List.flatten_cons]; exact List.mem_append_right _ ho)) i1 hd1
      refine ⟨c', d', vs ++ sites, ?_, j1, ?_, ⟨⟨ks, hk, ?_⟩, ?_⟩, ?_⟩
      · unfold fill
        simp only [bind, Except.bind, e1]
        exact e2
      · rw [List.length_append, v1, j2, List.sum_cons]
      · rw [List.take_left' v1]
        exact v3.trans (i4 ▸ List.Perm.refl _)
      · rw [List.drop_left' v1]
        exact j3
      · rw [List.sum_cons, ← List.range'_append_1, List.zip_append (by rw [List.length_range', v1])]
        refine j4.trans ?_
        rw [← List.append_assoc]
        exact List.Perm.append_right _ (i2.trans (List.Perm.append_left _ v2.symm))

theorem fill_over (r : Rand) (hr : FairRand r) : ∀ (occs : List (List (String × ℕ × ℚ))) (ns : List ℕ) (b c : ℕ) (d : Ids),
    ns.length = occs.length → (∃ x ∈ ns.zip occs, Overfull x.1 x.2) → (∀ o ∈ occs.flatten, 0 ≤ o.2.2) → (d.map (·.1)).Nodup →
    (∀ x ∈ pairs d, x.1 < b) → fill r occs ns b (c, d) = .error .valueError := by
  intro occs
  induction occs with
  | nil =>
    intro ns b c d _ h
    simp at h
  | cons occ occs ih =>
    intro ns b c d hlen hf hp hd hb
    cases ns with
    | nil => simp at hlen
    | cons n ns =>
      have hk := counts_exist n occ
      have hp1 : ∀ o ∈ occ, 0 ≤ o.2.2 := fun o ho => hp o (by rw [List.flatten_cons]; exact List.mem_append_left _ ho)
      have h0 := counts_nonneg hk hp1
      have hdis : ∀ i ∈ List.range' b n, ∀ k, (i, k) ∉ pairs d := by
        intro i hi k hik
        have := hb _ hik
        rw [List.mem_range'_1] at hi
        simp only at this
        omega
      unfold fill
      simp only [bind, Except.bind]
      by_cases hover : (n : ℤ) < (occ.map fun o => rint (n * o.2.2)).sum
      · rw [fillSub_over r hr n occ _ hk h0 _ c d hd List.nodup_range' hdis (by rw [List.length_range']; exact hover)]
      · obtain ⟨c1, d1, Q, e1, i1, i2, i3, i4⟩ := fillSub_spec r hr n occ _ hk h0 (List.range' b n) c d hd (List.nodup_range')
          hdis (by rw [List.length_range']; omega)
        rw [e1]
        refine ih ns (b + n) c1 d1 (by simpa using hlen) ?_
          (fun o ho => hp o (by rw [List.flatten_cons]; exact List.mem_append_right _ ho)) i1 ?_
        · obtain ⟨x, hx, hx'⟩ := hf
          rw [List.zip_cons_cons, List.mem_cons] at hx
          rcases hx with hx | hx
          · subst hx
            obtain ⟨ks, g1, g2⟩ := hx'
            rw [counts_unique g1] at g2
            exact absurd g2 hover
          · exact ⟨x, hx, hx'⟩
        · intro x hx
          rw [i2.mem_iff, List.mem_append] at hx
          rcases hx with hx | hx
          · have := hb x hx
            omega
          · have : x.1 ∈ List.range' b n := i3.subset (List.mem_map.2 ⟨x, hx, rfl⟩)
            rw [List.mem_range'_1] at this
            omega

/-! ## The structure -/

theorem assign_get {α : Type} (xs : List α) (ids : List ℕ) (v : α) (i : ℕ) :
    (assign xs ids v)[i]? = xs[i]?.map fun x => if i ∈ ids then v else x := by
  unfold assign
  rw [List.getElem?_mapIdx]

/-- The assignments one after another. -/
theorem place_get (w : ℕ) : ∀ (d : Ids) (st : Structure K), ((pairs d).map (·.1)).Nodup →
    let st' := d.foldl (fun st k => { st with
      elements := assign st.elements k.2 (cut w k.1.1)
      types := assign st.types k.2 k.1.2 }) st
    st'.axis = st.axis ∧ st'.positions = st.positions ∧ st'.nAtoms = st.nAtoms ∧
    (∀ i k, (i, k) ∈ pairs d → st'.elements[i]? = st.elements[i]?.map (fun _ => cut w k.1) ∧
      st'.types[i]? = st.types[i]?.map fun _ => k.2) ∧
    (∀ i, i ∉ (pairs d).map (·.1) → st'.elements[i]? = st.elements[i]? ∧ st'.types[i]? = st.types[i]?) := by
  intro d
  induction d with
  | nil =>
    intro st _
    refine ⟨rfl, rfl, rfl, ?_, fun i _ => ⟨rfl, rfl⟩⟩
    intro i k h
    simp [pairs] at h
  | cons a d ih =>
    intro st hnd
    obtain ⟨k0, l0⟩ := a
    have hp : pairs ((k0, l0) :: d) = l0.map (fun i => (i, k0)) ++ pairs d := rfl
    have hm : (pairs ((k0, l0) :: d)).map (·.1) = l0 ++ (pairs d).map (·.1) := by
      rw [hp, List.map_append, List.map_map]
      simp [Function.comp_def]
    rw [hm, List.nodup_append] at hnd
    obtain ⟨g1, g2, g3, g4, g5⟩ := ih { st with
      elements := assign st.elements l0 (cut w k0.1)
      types := assign st.types l0 k0.2 } hnd.2.1
    simp only [List.foldl_cons]
    refine ⟨g1, g2, g3, ?_, ?_⟩
    · intro i k h
      rw [hp, List.mem_append, List.mem_map] at h
      rcases h with ⟨j, hj, h⟩ | h
      · obtain ⟨rfl, rfl⟩ := Prod.mk.inj h
        have := g5 j fun h' => hnd.2.2 j hj j h' rfl
        rw [this.1, this.2, assign_get, assign_get]
        simp [hj]
      · have hi : i ∉ l0 := fun h' => hnd.2.2 i h' i (List.mem_map.2 ⟨_, h, rfl⟩) rfl
        have := g4 i k h
        rw [this.1, this.2]
        simp [assign_get, hi, Function.comp_def]
    · intro i h
      rw [hm, List.mem_append, not_or] at h
      have := g5 i h.2
      rw [this.1, this.2]
      simp [assign_get, h.1]

theorem width_le (l : List String) (e : String) (he : e ∈ l) : e.toList.length ≤ width l := by
  unfold width
  have : ∀ (l : List String) (w : ℕ), (∀ e ∈ l, e.toList.length ≤ l.foldl (fun w e => max w e.toList.length) w) ∧
      w ≤ l.foldl (fun w e => max w e.toList.length) w := by
    intro l
    induction l with
    | nil => intro w; exact ⟨by simp, Nat.le_refl _⟩
    | cons a l ih =>
      intro w
      have h1 := ih (max w a.toList.length)
      rw [List.foldl_cons]
      refine ⟨?_, (Nat.le_max_left _ _).trans h1.2⟩
      intro e he
      rcases List.mem_cons.1 he with rfl | he
      · exact (Nat.le_max_right _ _).trans h1.2
      · exact h1.1 e he
  exact (this l 0).1 e he

theorem cut_id (w : ℕ) (e : String) (h : e.toList.length ≤ w) : cut w e = e := by
  unfold cut
  rw [List.take_of_length_le h, String.ofList_toList]

theorem occupation_mem : ∀ (ns : List ℕ) (occs : List (List (String × ℕ × ℚ))) (sites : List (String × ℕ)),
    Occupation ns occs sites → ∀ x ∈ sites, ∃ o ∈ occs.flatten, x = (o.1, o.2.1) := by
  intro ns
  induction ns with
  | nil =>
    intro occs sites h x hx
    cases occs with
    | nil =>
      have : sites = [] := h
      subst this
      simp at hx
    | cons _ _ => exact h.elim
  | cons n ns ih =>
    intro occs sites h x hx
    cases occs with
    | nil => exact h.elim
    | cons occ occs =>
      obtain ⟨⟨ks, h1, h2⟩, h3⟩ := h
      rw [← List.take_append_drop n sites, List.mem_append] at hx
      rw [List.flatten_cons]
      rcases hx with hx | hx
      · rw [h2.mem_iff, List.mem_flatMap] at hx
        obtain ⟨y, hy, hx⟩ := hx
        exact ⟨y.1, List.mem_append_left _ (List.of_mem_zip hy).1, (List.mem_replicate.1 hx).2⟩
      · obtain ⟨o, ho, e⟩ := ih occs _ h3 x hx
        exact ⟨o, List.mem_append_right _ ho, e⟩

theorem sort_axis {st st' : Structure K} {ids : List ℕ} (h : sortWrtTypes st = .ok (st', ids)) : st'.axis = st.axis := by
  unfold sortWrtTypes at h
  simp only [bind, Except.bind, pure, Except.pure] at h
  cases h1 : AtomOrder.reorder st with
  | error e => simp [h1] at h
  | ok s =>
    simp only [h1, Except.ok.injEq, Prod.mk.injEq] at h
    rw [← h.1]
    unfold AtomOrder.reorder at h1
    simp only [bind, Except.bind, pure, Except.pure] at h1
    split at h1
    · simp at h1
    · cases h1
      rfl

/-- **C92.** Whatever the random numbers, a random structure of a lattice whose occupancy gives whole numbers of atoms is the
lattice with every element as often on every sublattice as the occupancy says, and atoms are listed type by type. -/
theorem C92_random (r : Rand) (hr : FairRand r) (lattice : Structure K) (occ : List (List (String × ℕ × ℚ))) (calls : ℕ)
    (hs : Suitable lattice occ) (hf : ∀ x ∈ lattice.nAtoms.zip occ, Fills x.1 x.2) :
    ∃ calls' st ids, randomStructure r lattice occ calls = .ok (calls', st, ids) ∧ RandomStructure lattice occ st ids := by
  obtain ⟨c', d, sites, e1, i1, i2, i3, i4⟩ := fill_spec r hr occ lattice.nAtoms 0 calls [] hs.sublattices hf hs.nonneg
    List.nodup_nil (by simp [pairs])
  obtain ⟨w1, w2, w3⟩ := hs.wf
  have hN : sites.length = lattice.positions.length := by omega
  have i4 : (pairs d).Perm ((List.range' 0 lattice.nAtoms.sum).zip sites) := i4
  have hzip : ((List.range' 0 lattice.nAtoms.sum).zip sites).map (·.1) = List.range' 0 lattice.nAtoms.sum :=
    List.map_fst_zip (by rw [List.length_range', i2])
  have hnd : ((pairs d).map (·.1)).Nodup := by
    rw [(i4.map _).nodup_iff, hzip]
    exact List.nodup_range'
  have hpl := place_get (width lattice.elements) d lattice hnd
  obtain ⟨g1, g2, g3, g4, -⟩ := hpl
  have hpair : ∀ (i : ℕ) (x : String × ℕ), sites[i]? = some x → (i, x) ∈ pairs d := by
    intro i x hx
    rw [i4.mem_iff]
    apply List.mem_of_getElem? (i := i)
    rw [List.getElem?_zip_eq_some]
    have hi := (List.getElem?_eq_some_iff.1 hx).1
    refine ⟨?_, hx⟩
    rw [List.getElem?_range' (by omega)]
    simp
  have hty : (place d lattice).types = sites.map (·.2) := by
    apply List.ext_getElem?
    intro i
    rw [List.getElem?_map]
    cases hx : sites[i]? with
    | none =>
      have hi := List.getElem?_eq_none_iff.1 hx
      have : (place d lattice).types[i]? = lattice.types[i]? := by
        refine (place_get (width lattice.elements) d lattice hnd).2.2.2.2 i ?_ |>.2
        rw [(i4.map _).mem_iff, hzip, List.mem_range'_1]
        omega
      rw [this, List.getElem?_eq_none (by omega)]
      rfl
    | some x =>
      have hi := (List.getElem?_eq_some_iff.1 hx).1
      have := (g4 i x (hpair i x hx)).2
      unfold place
      simp only
      rw [this, List.getElem?_eq_getElem (by omega)]
      rfl
  have hel : (place d lattice).elements = sites.map (·.1) := by
    apply List.ext_getElem?
    intro i
    rw [List.getElem?_map]
    cases hx : sites[i]? with
    | none =>
      have hi := List.getElem?_eq_none_iff.1 hx
      have : (place d lattice).elements[i]? = lattice.elements[i]? := by
        refine (place_get (width lattice.elements) d lattice hnd).2.2.2.2 i ?_ |>.1
        rw [(i4.map _).mem_iff, hzip, List.mem_range'_1]
        omega
      rw [this, List.getElem?_eq_none (by omega)]
      rfl
    | some x =>
      have hi := (List.getElem?_eq_some_iff.1 hx).1
      have := (g4 i x (hpair i x hx)).1
      unfold place
      simp only
      rw [this, List.getElem?_eq_getElem (by omega)]
      simp only [Option.map_some, Option.some.injEq]
      apply cut_id
      obtain ⟨o, ho, rfl⟩ := occupation_mem _ _ _ i3 x (List.mem_of_getElem? hx)
      obtain ⟨e, he, hle⟩ := hs.names o ho
      exact hle.trans (width_le _ e he)
  have hpos : (place d lattice).positions = lattice.positions := g2
  have hwf : (place d lattice).WF := by
    refine ⟨?_, ?_, ?_⟩
    · rw [hpos, hel, List.length_map]
      omega
    · rw [hty, hel, List.length_map, List.length_map]
    · have : (place d lattice).nAtoms = lattice.nAtoms := g3
      rw [this, hel, List.length_map, i2]
  have hdet : ∀ p ∈ (place d lattice).types.zip (place d lattice).elements, ∀ q ∈ (place d lattice).types.zip (place d lattice).elements,
      p.1 = q.1 → p.2 = q.2 := by
    have key : ∀ p ∈ (place d lattice).types.zip (place d lattice).elements, ∃ o ∈ occ.flatten, p = (o.2.1, o.1) := by
      intro p hp
      rw [hty, hel, List.zip_map', List.mem_map] at hp
      obtain ⟨x, hx, rfl⟩ := hp
      obtain ⟨o, ho, rfl⟩ := occupation_mem _ _ _ i3 x hx
      exact ⟨o, ho, rfl⟩
    intro p hp q hq hpq
    obtain ⟨o, ho, rfl⟩ := key p hp
    obtain ⟨o', ho', rfl⟩ := key q hq
    exact hs.types o ho o' ho' hpq
  obtain ⟨st', ids, h1, h2, h3, h4, h5, h6, h7⟩ := C42_sort_wrt_types (place d lattice) hwf hdet
  refine ⟨c', st', ids, ?_, ?_, ?_, h7, h6, ?_, sites, hN, i3, ?_, ?_⟩
  · unfold randomStructure
    simp only [bind, Except.bind, pure, Except.pure, e1, h1]
  · rw [hty, List.length_map, hN] at h2
    exact h2
  · rw [sort_axis h1]
    exact g1
  · rw [h3, hpos]
  · rw [h5, hel]
    simp only [List.getElem?_map]
  · rw [h4, hty]
    simp only [List.getElem?_map]

/-- **C92.** When the numbers of atoms on a sublattice, each rounded, exceed its sites, a ValueError is raised. -/
theorem C92_overfull (r : Rand) (hr : FairRand r) (lattice : Structure K) (occ : List (List (String × ℕ × ℚ))) (calls : ℕ)
    (hs : Suitable lattice occ) (hf : ∃ x ∈ lattice.nAtoms.zip occ, Overfull x.1 x.2) :
    randomStructure r lattice occ calls = .error .valueError := by
  unfold randomStructure
  simp only [bind, Except.bind, pure, Except.pure,
    fill_over r hr occ lattice.nAtoms 0 calls [] hs.sublattices hf hs.nonneg List.nodup_nil (by simp [pairs])]

end Verif.Disorder
