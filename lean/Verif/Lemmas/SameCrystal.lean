import Verif.Spec.SameCrystal
import Verif.Props.MlpGtEval

/-!
# Sums over two descriptions of one crystal
-/

namespace Verif.SameCrystal
open Verif Verif.Mlp
open Verif.Neighbor (Vec Csr r2)

variable {K : Type} [Field K] [LinearOrder K]

/-- The rows of two lists agree along `f`. -/
structure Folds (n n' : ℕ) (types types' : ℕ → ℕ) (N N' : ℕ → List (ℕ × Vec K)) (f : ℕ → ℕ) (m : ℕ) : Prop where
  lt : ∀ i < n', f i < n
  types : ∀ i < n', types' i = types (f i)
  range : ∀ i < n', ∀ e ∈ N' i, e.1 < n'
  rows : ∀ i < n', ((N' i).map fun e => (f e.1, e.2)).Perm (N (f i))
  count : ∀ j < n, ((List.range n').filter fun i => decide (f i = j)).length = m
  sym : (((List.range n).flatMap fun i => (N i).map fun e => (i, e)).map
    fun q : ℕ × ℕ × Vec K => (q.2.1, q.1, -q.2.2)).Perm ((List.range n).flatMap fun i => (N i).map fun e => (i, e))
  sym' : (((List.range n').flatMap fun i => (N' i).map fun e => (i, e)).map
    fun q : ℕ × ℕ × Vec K => (q.2.1, q.1, -q.2.2)).Perm ((List.range n').flatMap fun i => (N' i).map fun e => (i, e))

/-- A sum over the values of `f`. -/
theorem sum_fibres {M : Type} [AddCommMonoid M] (f : ℕ → ℕ) (F : ℕ → M) (n : ℕ) :
    ∀ l : List ℕ, (∀ i ∈ l, f i < n) →
      (l.map fun i => F (f i)).sum = ((List.range n).map fun j => (l.filter fun i => decide (f i = j)).length • F j).sum
  | [], _ => by simp
  | a :: l, h => by
    have ih := sum_fibres f F n l fun i hi => h i (by simp [hi])
    have h1 : ((List.range n).map fun j => if f a = j then F j else 0).sum = F (f a) := by
      have h2 : ∀ (r : List ℕ), r.Nodup → f a ∈ r → (r.map fun j => if f a = j then F j else 0).sum = F (f a) := by
        intro r
        induction r with
        | nil => intro _ h; simp at h
        | cons b r ih =>
          intro hnd hmem
          rw [List.nodup_cons] at hnd
          rw [List.map_cons, List.sum_cons]
          by_cases hb : f a = b
          · subst hb
            rw [if_pos rfl]
            have hz : (r.map fun j => if f a = j then F j else 0).sum = 0 := by
              refine List.sum_eq_zero fun y hy => ?_
              rw [List.mem_map] at hy
              obtain ⟨j, hj, rfl⟩ := hy
              rw [if_neg fun hh : f a = j => hnd.1 (hh ▸ hj)]
            rw [hz, add_zero]
          · rw [if_neg hb, zero_add]
            exact ih hnd.2 ((List.mem_cons.1 hmem).resolve_left hb)
      exact h2 _ List.nodup_range (List.mem_range.2 (h a (by simp)))
    rw [List.map_cons, List.sum_cons, ih, ← h1, ← List.sum_map_add]
    refine sum_map_congr _ _ _ fun j _ => ?_
    by_cases hj : f a = j
    · rw [if_pos hj, List.filter_cons_of_pos (by simpa using hj), List.length_cons, succ_nsmul, add_comm]
    · rw [if_neg hj, List.filter_cons_of_neg (by simpa using hj), zero_add]

section
variable {n n' : ℕ} {types types' : ℕ → ℕ} {N N' : ℕ → List (ℕ × Vec K)} {f : ℕ → ℕ} {m : ℕ}

/-- Sums over atoms. -/
theorem Folds.sum {M : Type} [AddCommMonoid M] (h : Folds n n' types types' N N' f m) (F F' : ℕ → M)
    (hF : ∀ i < n', F' i = F (f i)) : ((List.range n').map F').sum = m • ((List.range n).map F).sum := by
  rw [sum_map_congr (List.range n') F' (fun i => F (f i)) fun i hi => hF i (List.mem_range.1 hi),
    sum_fibres f F n _ fun i hi => h.lt i (List.mem_range.1 hi)]
  have h1 : ∀ l : List ℕ, (l.map fun j => m • F j).sum = m • (l.map F).sum := by
    intro l
    induction l with
    | nil => simp
    | cons a l ih => rw [List.map_cons, List.sum_cons, ih, List.map_cons, List.sum_cons, smul_add]
  rw [← h1]
  refine sum_map_congr _ _ _ fun j hj => ?_
  rw [h.count j (List.mem_range.1 hj)]

/-- Sums over neighbours. -/
theorem Folds.row {M : Type} [AddCommMonoid M] (h : Folds n n' types types' N N' f m) {i : ℕ} (hi : i < n')
    (G : ℕ × Vec K → M) (G' : ℕ × Vec K → M) (hG : ∀ e ∈ N' i, G' e = G (f e.1, e.2)) :
    ((N' i).map G').sum = ((N (f i)).map G).sum := by
  rw [sum_map_congr (N' i) G' (fun e => G (f e.1, e.2)) hG, ← ((h.rows i hi).map G).sum_eq, List.map_map]
  rfl

/-- The force on an atom from the terms of the pairs. -/
theorem force_local {M : Type} [AddCommGroup M] (N : ℕ → List (ℕ × Vec K))
    (hsym : (((List.range n).flatMap fun i => (N i).map fun e => (i, e)).map
      fun q : ℕ × ℕ × Vec K => (q.2.1, q.1, -q.2.2)).Perm ((List.range n).flatMap fun i => (N i).map fun e => (i, e)))
    (H : ℕ → ℕ × Vec K → M) {q : ℕ} (hq : q < n) :
    ((List.range n).map fun i => ((N i).map fun e =>
      (if q = i then H i e else 0) - (if q = e.1 then H i e else 0)).sum).sum =
      ((N q).map fun e => H q e - H e.1 (q, -e.2)).sum := by
  have hpick : ∀ G : ℕ → ℕ × Vec K → M, ((List.range n).map fun i => ((N i).map fun e =>
      if q = i then G i e else 0).sum).sum = ((N q).map fun e => G q e).sum := by
    intro G
    have h1 : ∀ r : List ℕ, r.Nodup → q ∈ r → (r.map fun i => ((N i).map fun e =>
        if q = i then G i e else 0).sum).sum = ((N q).map fun e => G q e).sum := by
      intro r
      induction r with
      | nil => intro _ h; simp at h
      | cons b r ih =>
        intro hnd hmem
        rw [List.nodup_cons] at hnd
        rw [List.map_cons, List.sum_cons]
        by_cases hb : q = b
        · subst hb
          have hz : (r.map fun i => ((N i).map fun e => if q = i then G i e else 0).sum).sum = 0 := by
            refine List.sum_eq_zero fun y hy => ?_
            rw [List.mem_map] at hy
            obtain ⟨j, hj, rfl⟩ := hy
            refine List.sum_eq_zero fun y hy => ?_
            rw [List.mem_map] at hy
            obtain ⟨e, _, rfl⟩ := hy
            rw [if_neg fun hh : q = j => hnd.1 (hh ▸ hj)]
          rw [hz, add_zero]
          refine sum_map_congr _ _ _ fun e _ => ?_
          rw [if_pos rfl]
        · rw [ih hnd.2 ((List.mem_cons.1 hmem).resolve_left hb)]
          have hz : ((N b).map fun e => if q = b then G b e else 0).sum = 0 := by
            refine List.sum_eq_zero fun y hy => ?_
            rw [List.mem_map] at hy
            obtain ⟨e, _, rfl⟩ := hy
            rw [if_neg hb]
          rw [hz, zero_add]
    exact h1 _ List.nodup_range (List.mem_range.2 hq)
  have hflat : ∀ G : ℕ → ℕ × Vec K → M, ((List.range n).map fun i => ((N i).map fun e => G i e).sum).sum =
      (((List.range n).flatMap fun i => (N i).map fun e => (i, e)).map fun q => G q.1 q.2).sum := by
    intro G
    have : ∀ r : List ℕ, (r.map fun i => ((N i).map fun e => G i e).sum).sum =
        ((r.flatMap fun i => (N i).map fun e => (i, e)).map fun q => G q.1 q.2).sum := by
      intro r
      induction r with
      | nil => rfl
      | cons b r ih =>
        rw [List.map_cons, List.sum_cons, ih, List.flatMap_cons, List.map_append, List.sum_append, List.map_map]
        rfl
    exact this _
  have hsub : ∀ A B : ℕ → ℕ × Vec K → M, ((List.range n).map fun i => ((N i).map fun e => A i e - B i e).sum).sum =
      ((List.range n).map fun i => ((N i).map fun e => A i e).sum).sum -
        ((List.range n).map fun i => ((N i).map fun e => B i e).sum).sum := by
    intro A B
    have h1 : ∀ {α : Type} (l : List α) (a b : α → M), (l.map fun x => a x - b x).sum =
        (l.map a).sum - (l.map b).sum := by
      intro α l a b
      induction l with
      | nil => simp
      | cons x l ih => simp only [List.map_cons, List.sum_cons, ih]; abel
    rw [← h1]
    refine sum_map_congr _ _ _ fun i _ => ?_
    rw [h1]
  rw [hsub, hpick]
  have hswap : ((List.range n).map fun i => ((N i).map fun e => if q = e.1 then H i e else 0).sum).sum =
      ((N q).map fun e => H e.1 (q, -e.2)).sum := by
    rw [hflat, ← (hsym.map _).sum_eq, List.map_map]
    have := hpick fun i e => H e.1 (i, -e.2)
    rw [hflat] at this
    rw [← this]
    rfl
  rw [hswap]
  have h1 : ∀ {α : Type} (l : List α) (a b : α → M), (l.map fun x => a x - b x).sum =
      (l.map a).sum - (l.map b).sum := by
    intro α l a b
    induction l with
    | nil => simp
    | cons x l ih => simp only [List.map_cons, List.sum_cons, ih]; abel
  rw [h1]

/-- Forces. -/
theorem Folds.force {M : Type} [AddCommGroup M] (h : Folds n n' types types' N N' f m)
    (H H' : ℕ → ℕ × Vec K → M) (hH : ∀ i < n', ∀ e, e.1 < n' → H' i e = H (f i) (f e.1, e.2)) {q : ℕ} (hq : q < n') :
    ((List.range n').map fun i => ((N' i).map fun e =>
      (if q = i then H' i e else 0) - (if q = e.1 then H' i e else 0)).sum).sum =
    ((List.range n).map fun i => ((N i).map fun e =>
      (if f q = i then H i e else 0) - (if f q = e.1 then H i e else 0)).sum).sum := by
  rw [force_local N' h.sym' H' hq, force_local N h.sym H (h.lt q hq)]
  refine h.row hq (fun e => H (f q) e - H e.1 (f q, -e.2)) _ fun e he => ?_
  have he1 := h.range q hq e he
  rw [hH q hq e he1, hH e.1 he1 (q, -e.2) hq]

end

/-! ## Lists of neighbours of two descriptions -/

section
variable {n n' : ℕ} {types types' : ℕ → ℕ} {pos pos' : ℕ → Fin 3 → K} {L L' : Set (Fin 3 → K)}
  {s : Fin 3 → K} {f : ℕ → ℕ} {m : ℕ} {cutoff tol : K} {N N' : ℕ → List (ℕ × Vec K)}

theorem sym_of (hneg : ∀ t ∈ L, -t ∈ L) (hN : Spec.AllNeighbors n pos L cutoff tol N) :
    (((List.range n).flatMap fun i => (N i).map fun e => (i, e)).map
      fun q : ℕ × ℕ × Vec K => (q.2.1, q.1, -q.2.2)).Perm
      ((List.range n).flatMap fun i => (N i).map fun e => (i, e)) := by
  have hnd : ((List.range n).flatMap fun i => (N i).map fun e => (i, e)).Nodup := by
    rw [List.nodup_flatMap]
    refine ⟨fun i hi => ?_, ?_⟩
    · exact ((hN i (List.mem_range.1 hi)).1).map fun a b hab => (Prod.mk.inj hab).2
    · refine List.nodup_range.imp fun hab x hx hy => ?_
      rw [List.mem_map] at hx hy
      obtain ⟨e, _, rfl⟩ := hx
      obtain ⟨e', _, h⟩ := hy
      exact hab (Prod.mk.inj h).1.symm
  have hlen : ∀ d : Fin 3 → K, Spec.len2 (-d) = Spec.len2 d := by intro d; simp [Spec.len2]
  have hmem : ∀ i j d, (i, j, d) ∈ ((List.range n).flatMap fun i => (N i).map fun e => (i, e)) ↔
      i < n ∧ j < n ∧ (∃ t ∈ L, d = pos j - pos i + t) ∧ tol * tol < Spec.len2 d ∧ Spec.len2 d < cutoff * cutoff := by
    intro i j d
    simp only [List.mem_flatMap, List.mem_range, List.mem_map]
    constructor
    · rintro ⟨i', hi, e, he, h⟩
      obtain ⟨rfl, rfl⟩ := Prod.mk.inj h
      exact ⟨hi, ((hN i' hi).2 j d).1 he⟩
    · rintro ⟨hi, h⟩
      exact ⟨i, hi, (j, d), ((hN i hi).2 j d).2 h, rfl⟩
  refine (List.perm_ext_iff_of_nodup (hnd.map ?_) hnd).2 ?_
  · rintro ⟨i, j, d⟩ ⟨i', j', d'⟩ h
    simp only [Prod.mk.injEq, neg_inj] at h
    rw [h.1, h.2.1, h.2.2]
  · rintro ⟨i, j, d⟩
    rw [List.mem_map]
    constructor
    · rintro ⟨⟨i', j', d'⟩, h, he⟩
      simp only [Prod.mk.injEq] at he
      obtain ⟨rfl, rfl, rfl⟩ := he
      obtain ⟨h1, h2, ⟨t, ht, hd⟩, h3, h4⟩ := (hmem _ _ _).1 h
      rw [hmem, hlen]
      refine ⟨h2, h1, ⟨-t, hneg t ht, ?_⟩, h3, h4⟩
      rw [hd]; abel
    · intro h
      obtain ⟨h1, h2, ⟨t, ht, hd⟩, h3, h4⟩ := (hmem _ _ _).1 h
      refine ⟨(j, i, -d), ?_, by simp⟩
      rw [hmem, hlen]
      refine ⟨h2, h1, ⟨-t, hneg t ht, ?_⟩, h3, h4⟩
      rw [hd]; abel

theorem folds_of (hadd : ∀ t ∈ L, ∀ u ∈ L, t + u ∈ L) (hneg : ∀ t ∈ L, -t ∈ L) (hneg' : ∀ t ∈ L', -t ∈ L')
    (hC : Spec.CrystalCopies n n' types types' pos pos' L L' s f m)
    (hN : Spec.AllNeighbors n pos L cutoff tol N) (hN' : Spec.AllNeighbors n' pos' L' cutoff tol N') :
    Folds n n' types types' N N' f m := by
  refine ⟨fun i hi => (hC.atom i hi).1, fun i hi => (hC.atom i hi).2.1,
    fun i hi e he => (((hN' i hi).2 e.1 e.2).1 he).1, ?_, hC.count, sym_of hneg hN, sym_of hneg' hN'⟩
  intro i hi
  obtain ⟨hfi, -, hpi⟩ := hC.atom i hi
  refine (List.perm_ext_iff_of_nodup ?_ (hN (f i) hfi).1).2 ?_
  · refine List.Nodup.map_on ?_ (hN' i hi).1
    rintro ⟨j, d⟩ hj ⟨j', d'⟩ hj' h
    simp only [Prod.mk.injEq] at h
    obtain ⟨hf, rfl⟩ := h
    obtain ⟨h1, ⟨t, ht, hd⟩, -⟩ := ((hN' i hi).2 j d).1 hj
    obtain ⟨h2, ⟨t', ht', hd'⟩, -⟩ := ((hN' i hi).2 j' d).1 hj'
    obtain ⟨hfj, -, hpj⟩ := hC.atom j h1
    have hx : pos' i + d - pos (f j) - s ∈ L := by
      have : pos' i + d - pos (f j) - s = (pos' j - pos (f j) - s) + t := by rw [hd]; abel
      rw [this]
      exact hadd _ hpj _ (hC.sub ht)
    have hu := (hC.once (f j) hfj _ hx).unique (y₁ := j) (y₂ := j')
      ⟨h1, rfl, by rw [show pos' i + d - pos' j = t by rw [hd]; abel]; exact ht⟩
      ⟨h2, hf.symm, by rw [show pos' i + d - pos' j' = t' by rw [hd']; abel]; exact ht'⟩
    rw [hu]
  · rintro ⟨j, d⟩
    rw [List.mem_map, (hN (f i) hfi).2 j d]
    constructor
    · rintro ⟨⟨j', d'⟩, he, h⟩
      simp only [Prod.mk.injEq] at h
      obtain ⟨rfl, rfl⟩ := h
      obtain ⟨h1, ⟨t, ht, hd⟩, h3, h4⟩ := ((hN' i hi).2 j' d').1 he
      obtain ⟨hfj, -, hpj⟩ := hC.atom j' h1
      refine ⟨hfj, ⟨(pos' j' - pos (f j') - s) + -(pos' i - pos (f i) - s) + t,
        hadd _ (hadd _ hpj _ (hneg _ hpi)) _ (hC.sub ht), ?_⟩, h3, h4⟩
      rw [hd]; abel
    · rintro ⟨hj, ⟨t, ht, hd⟩, h3, h4⟩
      have hx : pos' i + d - pos j - s ∈ L := by
        have : pos' i + d - pos j - s = (pos' i - pos (f i) - s) + t := by rw [hd]; abel
        rw [this]
        exact hadd _ hpi _ ht
      obtain ⟨j', ⟨h1, h2, h5⟩, -⟩ := hC.once j hj _ hx
      refine ⟨(j', d), ((hN' i hi).2 j' d).2 ⟨h1, ⟨_, h5, by abel⟩, h3, h4⟩, ?_⟩
      simp [h2]

end

end Verif.SameCrystal
