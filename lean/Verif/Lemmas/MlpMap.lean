import Verif.Model.MlpMap
import Mathlib.Data.List.Induction
import Mathlib.Data.List.Range
import Mathlib.Data.List.Nodup
import Mathlib.Data.List.NodupEquivFin

namespace Verif.Mlp

theorem put_same {α : Type} (v : ℕ → α) (i : ℕ) (x : α) : put v i x i = x := by simp [put]

theorem put_ne {α : Type} (v : ℕ → α) {i k : ℕ} (x : α) (h : k ≠ i) : put v i x k = v k := by
  simp [put, h]

theorem push_same {α : Type} (v : ℕ → List α) (i : ℕ) (x : α) : push v i x i = v i ++ [x] := by
  simp [push, put]

theorem push_ne {α : Type} (v : ℕ → List α) {i k : ℕ} (x : α) (h : k ≠ i) :
    push v i x k = v k := by
  simp [push, put, h]

theorem push_apply {α : Type} (v : ℕ → List α) (i : ℕ) (x : α) (k : ℕ) :
    push v i x k = v k ++ (if k = i then [x] else []) := by
  unfold push put; split_ifs with h <;> simp [h]

/-! ## Tables filled from a list -/

theorem zipIdx_snoc' {α : Type} (xs : List α) (x : α) :
    (xs ++ [x]).zipIdx = xs.zipIdx ++ [(x, xs.length)] := by
  rw [List.zipIdx_append]; simp

theorem table_not_mem (xs : List ℕ) (f : ℕ → ℕ) (k : ℕ) (h : k ∉ xs) :
    (xs.zipIdx.foldl (fun f (e : ℕ × ℕ) => put f e.1 e.2) f) k = f k := by
  induction xs using List.reverseRecOn with
  | nil => rfl
  | append_singleton xs x ih =>
    simp only [List.mem_append, List.mem_singleton, not_or] at h
    rw [zipIdx_snoc', List.foldl_append, List.foldl_cons, List.foldl_nil, put_ne _ _ h.2]
    exact ih h.1

theorem table_mem (xs : List ℕ) (f : ℕ → ℕ) (hnd : xs.Nodup) (i k : ℕ) (h : xs[i]? = some k) :
    (xs.zipIdx.foldl (fun f (e : ℕ × ℕ) => put f e.1 e.2) f) k = i := by
  induction xs using List.reverseRecOn with
  | nil => simp at h
  | append_singleton xs x ih =>
    rw [zipIdx_snoc', List.foldl_append, List.foldl_cons, List.foldl_nil]
    rw [List.nodup_append] at hnd
    by_cases hi : i < xs.length
    · rw [List.getElem?_append_left hi] at h
      have hk : k ∈ xs := List.mem_of_getElem? h
      rw [put_ne _ _ (hnd.2.2 k hk x (by simp))]
      exact ih hnd.1 h
    · obtain ⟨hlt, he⟩ := List.getElem?_eq_some_iff.1 h
      simp only [List.length_append, List.length_singleton] at hlt
      have hi' : i = xs.length := by omega
      subst hi'
      simp only [List.getElem_concat_length] at he
      subst he
      rw [put_same]

theorem nIdTable_mem (ns : List ℕ) (hnd : ns.Nodup) (k n : ℕ) (h : ns[k]? = some n) :
    nIdTable ns n = k := table_mem ns _ hnd k n h

/-! ## Type pairs -/

/-- The pairs in the order of the loops. -/
def allPairs (n : ℕ) : List (ℕ × ℕ) :=
  (List.range n).flatMap fun i => (List.range' i (n - i)).map fun j => (i, j)

theorem mem_allPairs (n i j : ℕ) : (i, j) ∈ allPairs n ↔ i ≤ j ∧ j < n := by
  simp only [allPairs, List.mem_flatMap, List.mem_range, List.mem_map, List.mem_range'_1,
    Prod.mk.injEq]
  constructor
  · rintro ⟨a, ha, b, hb, rfl, rfl⟩; omega
  · rintro ⟨h1, h2⟩; exact ⟨i, by omega, j, by omega, rfl, rfl⟩

theorem nodup_allPairs (n : ℕ) : (allPairs n).Nodup := by
  unfold allPairs
  rw [List.nodup_flatMap]
  refine ⟨fun i _ => ?_, ?_⟩
  · exact (List.nodup_range').map (fun a b h => by simpa using h)
  · refine List.Pairwise.imp_of_mem ?_ (List.nodup_range (n := n))
    intro a b _ _ hab
    rw [Function.onFun, List.disjoint_left]
    intro x hx hx'
    simp only [List.mem_map] at hx hx'
    obtain ⟨_, _, rfl⟩ := hx
    obtain ⟨_, _, h⟩ := hx'
    exact hab (by simpa using (congrArg Prod.fst h).symm)

theorem foldl_flatMap'' {α β γ : Type} (f : γ → β → γ) (g : α → List β) (l : List α) :
    ∀ a, (l.flatMap g).foldl f a = l.foldl (fun a x => (g x).foldl f a) a := by
  induction l with
  | nil => intro a; rfl
  | cons x l ih => intro a; simp [List.foldl_append, ih]

theorem setTypePairs_eq (n : ℕ) (cond : ℕ → ℕ → List ℕ) :
    setTypePairs n cond =
      (allPairs n).foldl (fun s e => typePairStep cond e.1 s e.2) ⟨fun _ _ => 0, [], []⟩ := by
  unfold setTypePairs allPairs
  rw [foldl_flatMap'']
  congr 1
  funext s i
  rw [List.foldl_map]

theorem typePairStep_typePairs (cond : ℕ → ℕ → List ℕ) (i j : ℕ) (s : TpMaps) (a b : ℕ) :
    (typePairStep cond i s j).typePairs a b =
      if (a = i ∧ b = j) ∨ (a = j ∧ b = i) then s.tpTypes.length else s.typePairs a b := by
  unfold typePairStep put
  simp only
  by_cases h1 : a = i <;> by_cases h2 : b = j <;> by_cases h3 : a = j <;> by_cases h4 : b = i <;>
    simp_all

theorem typePairs_inv (cond : ℕ → ℕ → List ℕ) (P : List (ℕ × ℕ)) (hnd : P.Nodup)
    (hle : ∀ e ∈ P, e.1 ≤ e.2) :
    let s := P.foldl (fun s e => typePairStep cond e.1 s e.2) ⟨fun _ _ => 0, [], []⟩
    s.tpTypes = P ∧ s.tpN = P.map (fun e => cond e.1 e.2) ∧
      ∀ k i j, P[k]? = some (i, j) → s.typePairs i j = k ∧ s.typePairs j i = k := by
  induction P using List.reverseRecOn with
  | nil => exact ⟨rfl, rfl, by intro k i j h; simp at h⟩
  | append_singleton P e ih =>
    rw [List.nodup_append] at hnd
    obtain ⟨h1, h2, h3⟩ := ih hnd.1 (fun x hx => hle x (by simp [hx]))
    have hlee := hle e (by simp)
    simp only [List.foldl_append, List.foldl_cons, List.foldl_nil]
    refine ⟨congrArg (· ++ [e]) h1, ?_, ?_⟩
    · rw [List.map_append]; exact congrArg (· ++ [cond e.1 e.2]) h2
    intro k i j hk
    rw [typePairStep_typePairs, typePairStep_typePairs, h1]
    by_cases hlt : k < P.length
    · rw [List.getElem?_append_left hlt] at hk
      have hm : (i, j) ∈ P := List.mem_of_getElem? hk
      have hne := hnd.2.2 (i, j) hm e (by simp)
      have hij := hle (i, j) (by simp [hm])
      have hc : ¬ ((i = e.1 ∧ j = e.2) ∨ (i = e.2 ∧ j = e.1)) := by
        rintro (⟨ha, hb⟩ | ⟨ha, hb⟩)
        · exact hne (Prod.ext ha hb)
        · simp only at hij
          exact hne (Prod.ext (by simp only; omega) (by simp only; omega))
      rw [if_neg hc, if_neg (fun h => hc (by tauto))]
      exact h3 k i j hk
    · obtain ⟨hl, he⟩ := List.getElem?_eq_some_iff.1 hk
      simp only [List.length_append, List.length_singleton] at hl
      have hk' : k = P.length := by omega
      subst hk'
      simp only [List.getElem_concat_length] at he
      subst he
      simp

variable (n : ℕ) (cond : ℕ → ℕ → List ℕ)

theorem tpTypes_eq : (setTypePairs n cond).tpTypes = allPairs n := by
  rw [setTypePairs_eq]
  exact (typePairs_inv cond (allPairs n) (nodup_allPairs n)
    (fun e he => ((mem_allPairs n e.1 e.2).1 he).1)).1

theorem tpN_eq : (setTypePairs n cond).tpN = (allPairs n).map fun e => cond e.1 e.2 := by
  rw [setTypePairs_eq]
  exact (typePairs_inv cond (allPairs n) (nodup_allPairs n)
    (fun e he => ((mem_allPairs n e.1 e.2).1 he).1)).2.1

theorem typePairs_of_get {k i j : ℕ} (h : (allPairs n)[k]? = some (i, j)) :
    (setTypePairs n cond).typePairs i j = k ∧ (setTypePairs n cond).typePairs j i = k := by
  rw [setTypePairs_eq]
  exact (typePairs_inv cond (allPairs n) (nodup_allPairs n)
    (fun e he => ((mem_allPairs n e.1 e.2).1 he).1)).2.2 k i j h

/-- Entry `typePairs i j` of the list of pairs is `(min i j, max i j)`. -/
theorem allPairs_typePairs {i j : ℕ} (hi : i < n) (hj : j < n) :
    (allPairs n)[(setTypePairs n cond).typePairs i j]? = some (min i j, max i j) := by
  have hm : (min i j, max i j) ∈ allPairs n := (mem_allPairs n _ _).2 ⟨by omega, by omega⟩
  obtain ⟨k, hk⟩ := List.mem_iff_getElem?.1 hm
  have h := typePairs_of_get n cond hk
  rcases le_total i j with hij | hij
  · rw [min_eq_left hij, max_eq_right hij] at h hk ⊢
    rw [h.1, hk]
  · rw [min_eq_right hij, max_eq_left hij] at h hk ⊢
    rw [h.2, hk]

theorem typePairs_symm {i j : ℕ} (hi : i < n) (hj : j < n) :
    (setTypePairs n cond).typePairs i j = (setTypePairs n cond).typePairs j i := by
  have hm : (min i j, max i j) ∈ allPairs n := (mem_allPairs n _ _).2 ⟨by omega, by omega⟩
  obtain ⟨k, hk⟩ := List.mem_iff_getElem?.1 hm
  have h := typePairs_of_get n cond hk
  rcases le_total i j with hij | hij
  · rw [min_eq_left hij, max_eq_right hij] at h; rw [h.1, h.2]
  · rw [min_eq_right hij, max_eq_left hij] at h; rw [h.1, h.2]

/-- The two types of a pair. -/
def typesOf (m : TpMaps) (tp : ℕ) : ℕ × ℕ := m.tpTypes.getD tp (0, 0)

theorem typesOf_typePairs {i j : ℕ} (hi : i < n) (hj : j < n) :
    typesOf (setTypePairs n cond) ((setTypePairs n cond).typePairs i j) = (min i j, max i j) := by
  rw [typesOf, tpTypes_eq, List.getD_eq_getElem?_getD, allPairs_typePairs n cond hi hj]
  rfl

/-! ## Attributes -/

theorem mem_globalAttrs {m : TpMaps} {a : NtpAttr} (h : a ∈ globalAttrs m) :
    (∃ ns, m.tpN[a.tp]? = some ns ∧ a.n ∈ ns ∧ a.nId = nIdTable ns a.n) ∧
      (globalAttrs m)[a.gid]? = some a := by
  unfold globalAttrs at h ⊢
  rw [List.mem_map] at h
  obtain ⟨⟨⟨n, nid, tp⟩, g⟩, hx, rfl⟩ := h
  have hx' := List.mem_zipIdx_iff_getElem?.1 hx
  constructor
  · have hm := List.mem_of_getElem? hx'
    simp only [List.mem_flatMap, List.mem_map] at hm
    obtain ⟨⟨ns, t⟩, hns, n', hn', he⟩ := hm
    have hns' := List.mem_zipIdx_iff_getElem?.1 hns
    simp only [Prod.mk.injEq] at he
    obtain ⟨rfl, rfl, rfl⟩ := he
    exact ⟨ns, hns', hn', rfl⟩
  · simp only [List.getElem?_map, List.getElem?_zipIdx, hx', Option.map_some]
    simp

theorem globalAttrs_gid (m : TpMaps) (g : ℕ) (a : NtpAttr) (h : (globalAttrs m)[g]? = some a) :
    a.gid = g := by
  unfold globalAttrs at h
  rw [List.getElem?_map, List.getElem?_zipIdx] at h
  simp only [Option.map_map, Option.map_eq_some_iff] at h
  obtain ⟨x, _, rfl⟩ := h
  simp

theorem nodup_gids (m : TpMaps) : ((globalAttrs m).map (·.gid)).Nodup := by
  have : (globalAttrs m).map (·.gid) = List.range (globalAttrs m).length := by
    apply List.ext_getElem (by simp)
    intro i h1 h2
    simp only [List.length_map] at h1
    rw [List.getElem_map, List.getElem_range]
    exact globalAttrs_gid m i _ (List.getElem?_eq_getElem h1)
  rw [this]
  exact List.nodup_range

/-- The local maps after the attributes `P`. -/
def locFold (m : TpMaps) (P : List NtpAttr) : LocalMaps :=
  P.foldl (localStep m) ⟨fun _ => [], fun _ _ => 0⟩

theorem locFold_snoc (m : TpMaps) (P : List NtpAttr) (a : NtpAttr) :
    locFold m (P ++ [a]) = localStep m (locFold m P) a := by
  simp [locFold, List.foldl_append]

/-- Exchange of the two local identifiers. -/
def swap (a : NtpAttr) : NtpAttr := { a with iloc := a.jloc, jloc := a.iloc }

/-- Attribute without local identifiers. -/
def bare (a : NtpAttr) : NtpAttr := { a with iloc := 0, jloc := 0 }

/-- Whether `t` is one of the two types. -/
def rel (m : TpMaps) (t : ℕ) (a : NtpAttr) : Bool := (typesOf m a.tp).1 = t ∨ (typesOf m a.tp).2 = t

theorem localStep_attrs (m : TpMaps) (s : LocalMaps) (a : NtpAttr) (t : ℕ) :
    (localStep m s a).attrs t = s.attrs t ++
      if t = (typesOf m a.tp).1 then
        [{ a with iloc := (s.attrs (typesOf m a.tp).1).length,
                  jloc := (s.attrs (typesOf m a.tp).2).length }]
      else if t = (typesOf m a.tp).2 then
        [{ a with iloc := (s.attrs (typesOf m a.tp).2).length,
                  jloc := (s.attrs (typesOf m a.tp).1).length }]
      else [] := by
  unfold localStep typesOf
  simp only
  set T := m.tpTypes.getD a.tp (0, 0)
  by_cases h : T.1 = T.2
  · rw [if_neg (by simpa using h)]
    simp only [push_apply]
    by_cases ht : t = T.1
    · simp [ht, h]
    · simp [ht, ← h]
  · rw [if_pos (by simpa using h)]
    simp only [push_apply]
    by_cases ht : t = T.1
    · have : ¬ T.1 = T.2 := h
      simp [ht, this]
    · by_cases ht2 : t = T.2
      · simp [ht, ht2, Ne.symm h]
      · simp [ht, ht2]

theorem localStep_iloc (m : TpMaps) (s : LocalMaps) (a : NtpAttr) (g t : ℕ) :
    (localStep m s a).iloc g t =
      if g = a.gid ∧ t = (typesOf m a.tp).1 then (s.attrs (typesOf m a.tp).1).length
      else if g = a.gid ∧ t = (typesOf m a.tp).2 then (s.attrs (typesOf m a.tp).2).length
      else s.iloc g t := by
  unfold localStep typesOf
  simp only
  set T := m.tpTypes.getD a.tp (0, 0)
  by_cases h : T.1 = T.2
  · rw [if_neg (by simpa using h)]
    unfold put
    by_cases h1 : g = a.gid <;> by_cases h2 : t = T.1 <;> by_cases h3 : t = T.2 <;> simp_all
  · rw [if_pos (by simpa using h)]
    unfold put
    by_cases h1 : g = a.gid <;> by_cases h2 : t = T.1 <;> by_cases h3 : t = T.2 <;> simp_all

theorem locFold_attrs (m : TpMaps) (P : List NtpAttr) (a : NtpAttr) (t : ℕ) :
    (locFold m (P ++ [a])).attrs t = (locFold m P).attrs t ++
      if t = (typesOf m a.tp).1 then
        [{ a with iloc := ((locFold m P).attrs (typesOf m a.tp).1).length,
                  jloc := ((locFold m P).attrs (typesOf m a.tp).2).length }]
      else if t = (typesOf m a.tp).2 then
        [{ a with iloc := ((locFold m P).attrs (typesOf m a.tp).2).length,
                  jloc := ((locFold m P).attrs (typesOf m a.tp).1).length }]
      else [] := by
  rw [locFold_snoc]; exact localStep_attrs m (locFold m P) a t

/-- What the loop over the attributes maintains. -/
structure LocInv (m : TpMaps) (P : List NtpAttr) : Prop where
  bare : ∀ t, ((locFold m P).attrs t).map bare = (P.filter (rel m t)).map bare
  iloc : ∀ (t k : ℕ) (a : NtpAttr), ((locFold m P).attrs t)[k]? = some a → a.iloc = k
  swap : ∀ tp, ((locFold m P).attrs (typesOf m tp).2).filter (fun a => a.tp = tp) =
    (((locFold m P).attrs (typesOf m tp).1).filter fun a => a.tp = tp).map swap
  table : (P.map (·.gid)).Nodup → ∀ t, ∀ a ∈ (locFold m P).attrs t, (locFold m P).iloc a.gid t = a.iloc

theorem mem_attrs_gid {m : TpMaps} {P : List NtpAttr} (h : LocInv m P) {t : ℕ} {a : NtpAttr}
    (ha : a ∈ (locFold m P).attrs t) : ∃ b ∈ P, b.gid = a.gid ∧ b.tp = a.tp ∧ rel m t b := by
  have h1 : Mlp.bare a ∈ ((locFold m P).attrs t).map Mlp.bare := List.mem_map.2 ⟨a, ha, rfl⟩
  rw [h.bare t, List.mem_map] at h1
  obtain ⟨b, hb, he⟩ := h1
  rw [List.mem_filter] at hb
  exact ⟨b, hb.1, by simpa [Mlp.bare] using congrArg NtpAttr.gid he,
    by simpa [Mlp.bare] using congrArg NtpAttr.tp he, hb.2⟩

theorem locInv (m : TpMaps) (P : List NtpAttr) : LocInv m P := by
  induction P using List.reverseRecOn with
  | nil =>
    exact ⟨fun t => rfl, fun t k a h => by simp [locFold] at h, fun tp => rfl,
      fun _ t a h => by simp [locFold] at h⟩
  | append_singleton P a ih =>
    have hat := locFold_attrs m P a
    refine ⟨?_, ?_, ?_, ?_⟩
    · intro t
      rw [hat t, List.map_append, ih.bare t, List.filter_append, List.map_append]
      congr 1
      by_cases h1 : t = (typesOf m a.tp).1
      · rw [if_pos h1]
        simp [rel, h1, Mlp.bare]
      · rw [if_neg h1]
        by_cases h2 : t = (typesOf m a.tp).2
        · rw [if_pos h2]; simp [rel, h2, Mlp.bare]
        · rw [if_neg h2]
          simp [rel, Ne.symm h1, Ne.symm h2]
    · intro t k b hb
      rw [hat t] at hb
      by_cases hk : k < ((locFold m P).attrs t).length
      · rw [List.getElem?_append_left hk] at hb
        exact ih.iloc t k b hb
      · rw [List.getElem?_append_right (by omega)] at hb
        split_ifs at hb with h1 h2
        · rw [List.getElem?_singleton] at hb
          split_ifs at hb with h0
          · cases hb
            simp only
            rw [← h1]; omega
        · rw [List.getElem?_singleton] at hb
          split_ifs at hb with h0
          · cases hb
            simp only
            rw [← h2]; omega
        · simp at hb
    · intro tp
      rw [hat, hat, List.filter_append, List.filter_append, List.map_append, ih.swap tp]
      congr 1
      by_cases htp : a.tp = tp
      · subst htp
        rw [if_pos rfl]
        by_cases h : (typesOf m a.tp).2 = (typesOf m a.tp).1
        · rw [if_pos h]
          simp [Mlp.swap, h]
        · rw [if_neg h, if_pos rfl]
          simp [Mlp.swap]
      · have : ∀ c : Prop, [Decidable c] → ∀ (c' : Prop), [Decidable c'] → ∀ x y : NtpAttr,
            x.tp = a.tp → y.tp = a.tp →
            (if c then [x] else if c' then [y] else []).filter (fun b => decide (b.tp = tp)) = [] := by
          intro c _ c' _ x y hx hy
          split_ifs <;> simp [hx, hy, htp]
        rw [this _ _ _ _ (by rfl) (by rfl), this _ _ _ _ (by rfl) (by rfl)]
        rfl
    · intro hnd t b hb
      rw [List.map_append, List.nodup_append] at hnd
      rw [hat t, List.mem_append] at hb
      rw [locFold_snoc, localStep_iloc]
      rcases hb with hb | hb
      · obtain ⟨c, hc, hg, _⟩ := mem_attrs_gid ih hb
        have hne : b.gid ≠ a.gid := by
          rw [← hg]
          exact hnd.2.2 c.gid (List.mem_map.2 ⟨c, hc, rfl⟩) a.gid (by simp)
        rw [if_neg (fun h => hne h.1), if_neg (fun h => hne h.1)]
        exact ih.table hnd.1 t b hb
      · split_ifs at hb with h1 h2
        · simp only [List.mem_singleton] at hb
          subst hb
          simp [h1]
        · simp only [List.mem_singleton] at hb
          subst hb
          simp [h1, h2]
          intro h; exact absurd (h2.trans h) h1
        · simp at hb

theorem localMaps_eq (m : TpMaps) : localMaps m = locFold m (globalAttrs m) := rfl

theorem compact_eq (attrs : List NtpAttr) (tp : ℕ) :
    compact attrs tp = attrs.filter fun a => a.tp = tp := by
  unfold compact
  induction attrs using List.reverseRecOn with
  | nil => rfl
  | append_singleton P a ih =>
    rw [List.foldl_append, List.foldl_cons, List.foldl_nil, push_apply, ih, List.filter_append]
    congr 1
    by_cases h : tp = a.tp
    · simp [h]
    · simp [h, Ne.symm h]

/-- The attributes of a pair seen from the second type are those seen from the first with the local
identifiers exchanged. -/
theorem compact_swap (m : TpMaps) (tp : ℕ) :
    compact ((localMaps m).attrs (typesOf m tp).2) tp =
      (compact ((localMaps m).attrs (typesOf m tp).1) tp).map swap := by
  rw [compact_eq, compact_eq, localMaps_eq]
  exact (locInv m (globalAttrs m)).swap tp

theorem swap_swap (a : NtpAttr) : swap (swap a) = a := rfl

theorem compact_swap_types {n : ℕ} (cond : ℕ → ℕ → List ℕ) {i j : ℕ} (hi : i < n) (hj : j < n) :
    let m := setTypePairs n cond
    compact ((localMaps m).attrs j) (m.typePairs i j) =
      (compact ((localMaps m).attrs i) (m.typePairs i j)).map swap := by
  intro m
  have h := compact_swap m (m.typePairs i j)
  rw [show typesOf m (m.typePairs i j) = (min i j, max i j) from typesOf_typePairs n cond hi hj] at h
  rcases le_total i j with hij | hij
  · simpa [min_eq_left hij, max_eq_right hij] using h
  · simp only [min_eq_right hij, max_eq_left hij] at h
    rw [h, List.map_map]
    have : swap ∘ swap = id := rfl
    rw [this, List.map_id]

/-- The features of a type: one per attribute, made of its own channel. -/
theorem pairFeatures_eq {K : Type} [One K] (m : TpMaps) (t : ℕ) :
    (pairFeatures m t : List (List (SingleTerm K))) =
      (List.range ((localMaps m).attrs t).length).map fun k => [(1, [k])] := by
  have key : ∀ (T : ℕ → ℕ → ℕ) (P : List NtpAttr),
      (∀ t, ∀ a ∈ (locFold m P).attrs t, T a.gid t = a.iloc) → ∀ t,
      (P.foldl
        (fun (fs : ℕ → List (List (SingleTerm K))) a =>
          let t := m.tpTypes.getD a.tp (0, 0)
          let fs1 := push fs t.1 [(1, [T a.gid t.1])]
          if t.1 ≠ t.2 then push fs1 t.2 [(1, [T a.gid t.2])] else fs1)
        (fun _ => [])) t = ((locFold m P).attrs t).map fun a => [(1, [a.iloc])] := by
    intro T P
    induction P using List.reverseRecOn with
    | nil => intro _ t; rfl
    | append_singleton P a ih =>
      intro hT t
      have hat := locFold_attrs m P a
      have hT' : ∀ t, ∀ b ∈ (locFold m P).attrs t, T b.gid t = b.iloc := by
        intro t b hb
        exact hT t b (by rw [hat t]; exact List.mem_append_left _ hb)
      rw [List.foldl_append, List.foldl_cons, List.foldl_nil]
      simp only
      have h1 : T a.gid (typesOf m a.tp).1 = ((locFold m P).attrs (typesOf m a.tp).1).length := by
        have := hT (typesOf m a.tp).1
          { a with iloc := ((locFold m P).attrs (typesOf m a.tp).1).length,
                   jloc := ((locFold m P).attrs (typesOf m a.tp).2).length }
          (by rw [hat, if_pos rfl]; simp)
        simpa using this
      have h2 : (typesOf m a.tp).1 ≠ (typesOf m a.tp).2 →
          T a.gid (typesOf m a.tp).2 = ((locFold m P).attrs (typesOf m a.tp).2).length := by
        intro hne
        have := hT (typesOf m a.tp).2
          { a with iloc := ((locFold m P).attrs (typesOf m a.tp).2).length,
                   jloc := ((locFold m P).attrs (typesOf m a.tp).1).length }
          (by rw [hat, if_neg (Ne.symm hne), if_pos rfl]; simp)
        simpa using this
      rw [hat t, List.map_append, ← ih hT' t]
      change (if (typesOf m a.tp).1 ≠ (typesOf m a.tp).2 then
          push (push _ (typesOf m a.tp).1 [(1, [T a.gid (typesOf m a.tp).1])]) (typesOf m a.tp).2
            [(1, [T a.gid (typesOf m a.tp).2])]
        else push _ (typesOf m a.tp).1 [(1, [T a.gid (typesOf m a.tp).1])]) t = _
      by_cases hne : (typesOf m a.tp).1 = (typesOf m a.tp).2
      · rw [if_neg (by simpa using hne), push_apply]
        congr 1
        by_cases ht : t = (typesOf m a.tp).1
        · rw [if_pos ht, if_pos ht, h1]; rfl
        · rw [if_neg ht, if_neg ht, if_neg (by rw [← hne]; exact ht)]; rfl
      · rw [if_pos hne, push_apply, push_apply, List.append_assoc]
        congr 1
        by_cases ht : t = (typesOf m a.tp).1
        · rw [if_pos ht, if_pos ht, if_neg (by rw [ht]; exact hne), h1]; rfl
        · rw [if_neg ht, if_neg ht]
          by_cases ht2 : t = (typesOf m a.tp).2
          · rw [if_pos ht2, if_pos ht2, h2 hne]; rfl
          · rw [if_neg ht2, if_neg ht2]; rfl
  have hI := locInv m (globalAttrs m)
  have h := key (localMaps m).iloc (globalAttrs m) (hI.table (nodup_gids m)) t
  rw [pairFeatures]
  refine h.trans ?_
  rw [← localMaps_eq]
  apply List.ext_getElem (by simp)
  intro k h1 h2
  simp only [List.length_map] at h1
  rw [List.getElem_map, List.getElem_map, List.getElem_range]
  rw [hI.iloc t k _ (List.getElem?_eq_getElem h1)]

end Verif.Mlp
