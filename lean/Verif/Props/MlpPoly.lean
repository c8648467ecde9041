import Verif.Lemmas.MlpPoly

/-!
# C27: enumeration of the columns of a polynomial model

`columns p` is the list of columns in the numbering of `set_polynomial`; `nVariables p` of the code
is its length.
-/

namespace Verif.Mlp

/-- A pair feature with type pair `tps[g]` exists for atoms of type `t`. -/
def PairExists (nType : ℕ) (typePairs : ℕ → ℕ → ℕ) (tps : List ℕ) (g t : ℕ) : Prop :=
  t < nType ∧ ∃ tp t2, tps[g]? = some tp ∧ t2 < nType ∧ typePairs t t2 = tp

/-- An invariant with types `types[g]` exists for atoms of type `t`. -/
def GtinvExists (types : List (List ℕ)) (g t : ℕ) : Prop := ∃ l, types[g]? = some l ∧ t ∈ l

theorem C27_number (p : PolyParams) : (columns p).length = nVariables p := columns_length p

private theorem pair_ts (nType : ℕ) (typePairs : ℕ → ℕ → ℕ) (tps : List ℕ) (c : List ℕ)
    (hc : ∀ g ∈ c, g < tps.length) (hne : c ≠ []) (t : ℕ) :
    t ∈ (List.range nType).filter (checkType nType typePairs (c.map fun i => tps.getD i 0)) ↔
      ∀ g ∈ c, PairExists nType typePairs tps g t := by
  rw [List.mem_filter, List.mem_range]
  simp only [checkType, List.all_eq_true, List.mem_map, forall_exists_index, and_imp,
    forall_apply_eq_imp_iff₂, List.any_eq_true, List.mem_range, beq_iff_eq]
  constructor
  · rintro ⟨h1, h2⟩ g hg
    obtain ⟨t2, h3, h4⟩ := h2 g hg
    refine ⟨h1, tps.getD g 0, t2, ?_, h3, h4⟩
    rw [List.getD_eq_getElem?_getD, List.getElem?_eq_getElem (hc g hg)]
    rfl
  · intro h
    obtain ⟨g0, hg0⟩ := List.exists_mem_of_ne_nil c hne
    refine ⟨(h g0 hg0).1, fun g hg => ?_⟩
    obtain ⟨_, tp, t2, h1, h2, h3⟩ := h g hg
    refine ⟨t2, h2, ?_⟩
    rw [List.getD_eq_getElem?_getD, h1]
    exact h3

/-- **C27 (pair features).**  For every table of type pairs and every list `tps` of type pairs of
the linear features: the columns are the linear features and, for model type 2, all products of up
to `maxp` of them with a common type, each exactly once; the terms of every type are the columns
that exist for it, with the right factors. -/
theorem C27_pair (nType : ℕ) (typePairs : ℕ → ℕ → ℕ) (tps : List ℕ) (modelType maxp : ℕ) :
    let p := polyPair nType typePairs tps modelType maxp
    let V := PairExists nType typePairs tps
    Spec.Enumerates V tps.length (fun g => modelType = 2 ∧ g < tps.length) maxp (columns p) ∧
    ∀ t, Spec.TermsOf V tps.length (columns p) t (p.comb1 t) (polynomial p t) := by
  intro p V
  let iarray := selectPair modelType tps.length
  let ts0 : List ℕ → List ℕ := fun is =>
    (List.range nType).filter (checkType nType typePairs (is.map fun i => tps.getD i 0))
  let V0 : ℕ → ℕ → Prop := fun g t => t ∈ ts0 [g]
  have hts0 : ∀ c : List ℕ, c ≠ [] → ∀ t, t ∈ ts0 c ↔ ∀ g ∈ c, V0 g t := by
    intro c hne t
    simp only [ts0, V0, List.mem_filter, List.mem_range, checkType, List.all_eq_true, List.mem_map,
      forall_exists_index, and_imp, forall_apply_eq_imp_iff₂, List.mem_singleton, forall_eq]
    constructor
    · rintro ⟨h1, h2⟩ g hg; exact ⟨h1, fun x hx => hx ▸ h2 g hg⟩
    · intro h
      obtain ⟨g0, hg0⟩ := List.exists_mem_of_ne_nil c hne
      exact ⟨(h g0 hg0).1, fun g hg => (h g hg).2 _ rfl⟩
  have hV : ∀ g < tps.length, ∀ t, V0 g t ↔ V g t := by
    intro g hg t
    have := pair_ts nType typePairs tps [g] (by simpa using hg) (by simp) t
    simpa [V0, V, ts0] using this
  have hinc : iarray.Pairwise (· < ·) := by
    simp only [iarray, selectPair]
    split_ifs
    · exact List.pairwise_lt_range
    · exact .nil
  have hi : ∀ g, g ∈ iarray ↔ modelType = 2 ∧ g < tps.length := by
    intro g
    simp only [iarray, selectPair]
    split_ifs with h <;> simp [h]
  have main := loops_enumerate (V := V0) tps.length (comb1Pair nType typePairs tps) iarray ts0
    (fun (is comb : List ℕ) => appendPair nType typePairs (is.map fun i => tps.getD i 0) comb)
    (modelType > 1) maxp (fun is c s _ => appendPair_eq _ _ _ _ _) hts0 hinc
    (fun g hg => ((hi g).1 hg).2)
  change Spec.Enumerates V0 _ _ _ (columns p) ∧ CombSpec V0 _ p.c2 ∧ CombSpec V0 _ p.c3 at main
  obtain ⟨hE, h2, h3⟩ := main
  have hcongr : ∀ s, CombSpec V0 tps.length s → CombSpec V tps.length s := by
    intro s hs
    refine ⟨hs.nodup, ?_, hs.inc, hs.lt⟩
    intro t i
    rw [hs.idx t i]
    constructor
    · rintro ⟨c, hc, h⟩
      exact ⟨c, hc, fun g hg => (hV g (hs.lt c (List.mem_of_getElem? hc) g hg) t).1 (h g hg)⟩
    · rintro ⟨c, hc, h⟩
      exact ⟨c, hc, fun g hg => (hV g (hs.lt c (List.mem_of_getElem? hc) g hg) t).2 (h g hg)⟩
  constructor
  · refine ⟨hE.nodup, hE.linear, ?_⟩
    intro c
    rw [hE.mem]
    refine or_congr Iff.rfl ?_
    constructor
    · rintro ⟨a, b, d, e, f, t, ht⟩
      exact ⟨a, b, d, e, fun g hg => (hi g).1 (f g hg).2, t,
        fun g hg => (hV g ((hi g).1 (f g hg).2).2 t).1 (ht g hg)⟩
    · rintro ⟨a, b, d, e, f, t, ht⟩
      exact ⟨a, b, d, e, fun g hg => ⟨by have := (f g hg).1; omega, (hi g).2 (f g hg)⟩, t,
        fun g hg => (hV g (f g hg).2 t).2 (ht g hg)⟩
  · intro t
    have hp : p.nLinear = tps.length := rfl
    have h1 : p.comb1 t = comb1Pair nType typePairs tps t := rfl
    have hf := filter_zipIdx_spec tps
      (fun a => decide (t < nType) && checkType nType typePairs [a] t)
    have := termsOf (V := V) p t (by rw [h1, comb1Pair_eq]; exact hf.1)
      (by
        intro g
        rw [h1, comb1Pair_eq, hf.2 g, hp]
        simp only [Bool.and_eq_true, decide_eq_true_eq, checkType, List.all_cons, List.all_nil,
          Bool.and_true, List.any_eq_true, List.mem_range, beq_iff_eq]
        constructor
        · rintro ⟨a, ha, ht, t2, h2, h3⟩
          exact ⟨(List.getElem?_eq_some_iff.1 ha).1, ht, a, t2, ha, h2, h3⟩
        · rintro ⟨_, ht, a, t2, ha, h2, h3⟩
          exact ⟨a, ha, ht, t2, h2, h3⟩)
      (by rw [hp]; exact hcongr _ h2) (by rw [hp]; exact hcongr _ h3)
    rw [hp] at this
    exact this

/-- **C27 (invariant features).**  The same for invariants with type lists `types` (increasing) and
orders `orders`: model type 2 selects all of them, 3 those of order 1, 4 and above those of order at
most 2. -/
theorem C27_gtinv (types : List (List ℕ)) (orders : List ℕ) (modelType maxp : ℕ)
    (hinc : ∀ l ∈ types, l.Pairwise (· < ·)) (hlen : orders.length = types.length) :
    let p := polyGtinv types orders modelType maxp
    let V := GtinvExists types
    let sel := fun g => ∃ o, orders[g]? = some o ∧
      (modelType = 2 ∨ (modelType = 3 ∧ o ≤ 1) ∨ (4 ≤ modelType ∧ o ≤ 2))
    Spec.Enumerates V types.length sel maxp (columns p) ∧
    ∀ t, Spec.TermsOf V types.length (columns p) t (p.comb1 t) (polynomial p t) := by
  intro p V sel
  let iarray := selectGtinv modelType orders
  let ts : List ℕ → List ℕ := fun is => interTypes (is.map fun i => types.getD i [])
  have hget : ∀ i, (types.getD i []).Pairwise (· < ·) := by
    intro i
    rw [List.getD_eq_getElem?_getD]
    cases h : types[i]? with
    | none => exact .nil
    | some l => exact hinc l (List.mem_of_getElem? h)
  have hVd : ∀ g t, V g t ↔ t ∈ types.getD g [] := by
    intro g t
    simp only [V, GtinvExists, List.getD_eq_getElem?_getD]
    cases h : types[g]? with
    | none => simp
    | some l => simp
  have hts : ∀ c : List ℕ, c ≠ [] → ∀ t, t ∈ ts c ↔ ∀ g ∈ c, V g t := by
    intro c hne t
    have := (interTypes_mem (c.map fun i => types.getD i []) (by simpa using hne)
      (by intro l hl; rw [List.mem_map] at hl; obtain ⟨i, _, rfl⟩ := hl; exact hget i)).1 t
    simp only [ts, this, List.mem_map, forall_exists_index, and_imp, forall_apply_eq_imp_iff₂, hVd]
  have hi : ∀ g, (modelType > 1 ∧ g ∈ iarray) ↔ sel g := by
    intro g
    have hg : ∀ (q : ℕ → Prop), (g < orders.length ∧ q (orders.getD g 0)) ↔
        ∃ o, orders[g]? = some o ∧ q o := by
      intro q
      constructor
      · rintro ⟨h1, h2⟩
        rw [List.getD_eq_getElem?_getD, List.getElem?_eq_getElem h1] at h2
        exact ⟨_, List.getElem?_eq_getElem h1, h2⟩
      · rintro ⟨o, h1, h2⟩
        rw [List.getD_eq_getElem?_getD, h1]
        exact ⟨(List.getElem?_eq_some_iff.1 h1).1, h2⟩
    simp only [iarray, selectGtinv, sel, ← hg]
    by_cases h2 : modelType = 2
    · subst h2; simp
    · rw [if_neg h2]
      by_cases h3 : modelType > 2
      · rw [if_pos h3]
        by_cases h4 : modelType = 3
        · subst h4; simp
        · rw [if_neg h4]
          have : 4 ≤ modelType := by omega
          simp [h2, h4, this, show modelType > 1 by omega]
      · rw [if_neg h3]
        simp [h2, show ¬ modelType = 3 by omega, show ¬ 4 ≤ modelType by omega]
  have hil : ∀ g ∈ iarray, g < types.length := by
    intro g hg
    rw [← hlen]
    by_cases h : modelType > 1
    · obtain ⟨o, ho, _⟩ := (hi g).1 ⟨h, hg⟩
      exact (List.getElem?_eq_some_iff.1 ho).1
    · simp only [iarray, selectGtinv] at hg
      rw [if_neg (by omega), if_neg (by omega)] at hg
      simp at hg
  have hii : iarray.Pairwise (· < ·) := by
    simp only [iarray, selectGtinv]
    split_ifs
    · exact List.pairwise_lt_range
    · exact List.pairwise_lt_range.filter _
    · exact List.pairwise_lt_range.filter _
    · exact .nil
  have main := loops_enumerate (V := V) types.length (comb1Gtinv types) iarray ts
    (fun (is comb : List ℕ) => appendGtinv (is.map fun i => types.getD i []) comb)
    (modelType > 1) maxp
    (fun is c s hne => appendGtinv_eq _ _ _ (by simpa using hne)
      (by intro l hl; rw [List.mem_map] at hl; obtain ⟨i, _, rfl⟩ := hl; exact hget i))
    hts hii hil
  change Spec.Enumerates V _ _ _ (columns p) ∧ CombSpec V _ p.c2 ∧ CombSpec V _ p.c3 at main
  obtain ⟨hE, h2, h3⟩ := main
  constructor
  · refine ⟨hE.nodup, hE.linear, ?_⟩
    intro c
    rw [hE.mem]
    simp only [hi]
  · intro t
    have hp : p.nLinear = types.length := rfl
    have h1 : p.comb1 t = comb1Gtinv types t := rfl
    have hnd : ∀ l ∈ types, l.Nodup := fun l hl => (hinc l hl).imp fun h => Nat.ne_of_lt h
    have hf := filter_zipIdx_spec types (fun a => decide (t ∈ a))
    have := termsOf (V := V) p t (by rw [h1, comb1Gtinv_eq types hnd]; exact hf.1)
      (by
        intro g
        rw [h1, comb1Gtinv_eq types hnd, hf.2 g, hp]
        simp only [decide_eq_true_eq, V, GtinvExists]
        constructor
        · rintro ⟨a, ha, ht⟩
          exact ⟨(List.getElem?_eq_some_iff.1 ha).1, a, ha, ht⟩
        · rintro ⟨_, a, ha, ht⟩
          exact ⟨a, ha, ht⟩)
      (by rw [hp]; exact h2) (by rw [hp]; exact h3)
    rw [hp] at this
    exact this

/-- Two types, three radial functions on the pairs (0,0), (0,1), (1,1): the product of the first and
the third does not exist. -/
example : columns (polyPair 2 (fun i j => i + j) [0, 1, 2] 2 2) =
    [[0], [1], [2], [0, 0], [0, 1], [1, 1], [1, 2], [2, 2]] := by decide +kernel

example : polynomial (polyPair 2 (fun i j => i + j) [0, 1, 2] 2 2) 1 =
    [(1, [0]), (2, [1]), (5, [0, 0]), (6, [0, 1]), (7, [1, 1])] := by decide +kernel

/-- Hypotheses of `C27_gtinv` are met by two invariants of orders 1 and 3. -/
example : (∀ l ∈ [[0, 1], [1]], l.Pairwise (· < ·)) ∧
    columns (polyGtinv [[0, 1], [1]] [1, 3] 3 3) = [[0], [1], [0, 0], [0, 0, 0]] := by
  decide +kernel

end Verif.Mlp
