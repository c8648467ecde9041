import Verif.Model.MlpPot
import Verif.Lemmas.MlpMap
import Verif.Lemmas.Dict
import Verif.Lemmas.Params
import Verif.Lemmas.Neighbor
import Mathlib.Algebra.BigOperators.Group.List.Lemmas
import Mathlib.Algebra.BigOperators.Ring.List
import Mathlib.Data.List.Perm.Basic
import Mathlib.Tactic.Ring
import Mathlib.Tactic.Abel

namespace Verif.Mlp
open Verif

/-! ## Products -/

theorem product_eq {A : Type} [CommMonoid A] (p : List ℕ) (el : ℕ → A) :
    product p el = (p.map el).prod := by
  cases p with
  | nil => rfl
  | cons a as =>
    rw [product, List.map_cons, List.prod_cons]
    have : ∀ (l : List ℕ) (x : A), l.foldl (fun v q => v * el q) x = x * (l.map el).prod := by
      intro l
      induction l with
      | nil => intro x; simp
      | cons b bs ih => intro x; rw [List.foldl_cons, ih]; simp [mul_assoc]
    exact this as (el a)

theorem mem_uniqKeys (keys : List (List ℕ)) (k : List ℕ) : k ∈ uniqKeys keys ↔ k ∈ keys := by
  unfold uniqKeys
  rw [(List.perm_insertionSort _ _).mem_iff, List.mem_dedup]

theorem nodup_uniqKeys (keys : List (List ℕ)) : (uniqKeys keys).Nodup := by
  unfold uniqKeys
  exact (List.perm_insertionSort _ _).nodup_iff.2 (List.nodup_dedup _)

theorem keyId_eq (map : List (List ℕ)) (hnd : map.Nodup) (i : ℕ) (k : List ℕ)
    (h : map[i]? = some k) : keyId map k = i := by
  unfold keyId
  rw [Params.get?_setAll_some (v := i)]
  · rfl
  · exact List.mem_zipIdx_iff_getElem?.2 h
  · intro w hw
    have hw' := List.mem_zipIdx_iff_getElem?.1 hw
    simp only at hw'
    obtain ⟨h1, h2⟩ := List.getElem?_eq_some_iff.1 h
    obtain ⟨h3, h4⟩ := List.getElem?_eq_some_iff.1 hw'
    exact (List.Nodup.getElem_inj_iff hnd).1 (h4.trans h2.symm)

theorem get_keyId (keys : List (List ℕ)) (k : List ℕ) (h : k ∈ keys) :
    (uniqKeys keys)[keyId (uniqKeys keys) k]? = some k := by
  obtain ⟨i, hi⟩ := List.mem_iff_getElem?.1 ((mem_uniqKeys keys k).2 h)
  rw [keyId_eq _ (nodup_uniqKeys keys) i k hi, hi]

theorem products_keyId {A : Type} [CommRing A] (keys : List (List ℕ)) (el : ℕ → A) (k : List ℕ)
    (h : k ∈ keys) :
    products (uniqKeys keys) el (keyId (uniqKeys keys) k) = (k.map el).prod := by
  rw [products, List.getD_eq_getElem?_getD, List.getElem?_map, get_keyId keys k h]
  simp [product_eq]

theorem eraseKey_prod {A : Type} [CommRing A] (ids : List ℕ) (i : ℕ) (el : ℕ → A) :
    ((eraseKey ids i).map el).prod = ((ids.eraseIdx i).map el).prod := by
  unfold eraseKey
  exact ((List.perm_insertionSort _ _).map el).prod_eq

/-! ## Merged terms -/

theorem sum_set_new {κ V M : Type} [DecidableEq κ] [AddCommMonoid M] (d : Dict κ V) (k : κ) (v : V)
    (φ : κ → V → M) (h : d.get? k = none) :
    ((d.set k v).map fun e => φ e.1 e.2).sum = (d.map fun e => φ e.1 e.2).sum + φ k v := by
  rw [Dict.get?_eq_none] at h
  have : ¬ (d.any fun p => p.1 = k) := by
    simp only [List.any_eq_true, decide_eq_true_eq, not_exists, not_and]
    intro p hp he
    exact h (List.mem_map.2 ⟨p, hp, he⟩)
  rw [Dict.set, if_neg this]
  simp

theorem sum_set_old {κ V M : Type} [DecidableEq κ] [AddCommMonoid M] [AddCommMonoid V]
    (d : Dict κ V) (hd : d.keys.Nodup) (k : κ) (w v : V)
    (φ : κ → V →+ M) (h : d.get? k = some w) :
    ((d.set k (w + v)).map fun e => φ e.1 e.2).sum = (d.map fun e => φ e.1 e.2).sum + φ k v := by
  have hm := Dict.mem_of_get? h
  have hany : (d.any fun p => p.1 = k) := by
    simp only [List.any_eq_true, decide_eq_true_eq]
    exact ⟨_, hm, rfl⟩
  rw [Dict.set, if_pos hany]
  clear hany h
  induction d with
  | nil => simp at hm
  | cons p d ih =>
    simp only [Dict.keys, List.map_cons, List.nodup_cons] at hd
    rw [List.map_cons, List.map_cons, List.sum_cons, List.map_cons, List.sum_cons]
    rcases List.mem_cons.1 hm with he | hm'
    · subst he
      have : (d.map fun p => if p.1 = k then (k, w + v) else p) = d := by
        conv_rhs => rw [← List.map_id d]
        apply List.map_congr_left
        intro q hq
        have : q.1 ≠ k := fun hqk => hd.1 (List.mem_map.2 ⟨q, hq, hqk⟩)
        simp [this]
      rw [this]
      simp only [if_true, map_add]
      abel
    · have hpk : p.1 ≠ k := fun e => hd.1 (List.mem_map.2 ⟨(k, w), hm', e.symm⟩)
      rw [ih hd.2 hm', if_neg hpk]
      abel

theorem mergeAdd_sum {κ V M : Type} [DecidableEq κ] [AddCommMonoid M] [AddCommMonoid V]
    (events : List (κ × V)) (φ : κ → V →+ M) :
    ((mergeAdd events).map fun e => φ e.1 e.2).sum = (events.map fun e => φ e.1 e.2).sum := by
  have : ((mergeAdd events).map fun e => φ e.1 e.2).sum = (events.map fun e => φ e.1 e.2).sum ∧
      (mergeAdd events).keys.Nodup := by
    unfold mergeAdd
    induction events using List.reverseRecOn with
    | nil => simp [Dict.keys]
    | append_singleton ev e ih =>
      rw [List.foldl_append, List.foldl_cons, List.foldl_nil, List.map_append, List.sum_append]
      simp only [List.map_cons, List.map_nil, List.sum_cons, List.sum_nil, add_zero]
      set d := List.foldl _ [] ev with hdd
      cases hg : Dict.get? d e.1 with
      | none =>
        exact ⟨by rw [sum_set_new d e.1 e.2 (fun k v => φ k v) hg, ih.1],
          Dict.nodup_keys_set ih.2 _ _⟩
      | some w =>
        exact ⟨by rw [sum_set_old d ih.2 e.1 w e.2 φ hg, ih.1], Dict.nodup_keys_set ih.2 _ _⟩
  exact this.1

theorem mergeAdd_nodup {κ V : Type} [DecidableEq κ] [Add V] (events : List (κ × V)) :
    (mergeAdd events).keys.Nodup := by
  unfold mergeAdd
  induction events using List.reverseRecOn with
  | nil => simp [Dict.keys]
  | append_singleton ev e ih =>
    rw [List.foldl_append, List.foldl_cons, List.foldl_nil]
    split
    · exact Dict.nodup_keys_set ih _ _
    · exact Dict.nodup_keys_set ih _ _

/-! ## Sums over buckets -/

theorem push_foldl {α β : Type} (l : List β) (f : β → ℕ × α) (v : ℕ → List α) (h : ℕ) :
    (l.foldl (fun v e => push v (f e).1 (f e).2) v) h =
      v h ++ (l.filter fun e => (f e).1 = h).map fun e => (f e).2 := by
  induction l using List.reverseRecOn with
  | nil => simp
  | append_singleton l e ih =>
    rw [List.foldl_append, List.foldl_cons, List.foldl_nil, push_apply, ih, List.filter_append,
      List.map_append, List.append_assoc]
    congr 2
    by_cases he : h = (f e).1
    · simp [he]
    · simp [he, Ne.symm he]

variable {K : Type} [Field K]

theorem potModel_eq (target : ℕ → Option ℕ) (d : Dict (ℕ × ℕ × ℕ) (K × K)) (h : ℕ) :
    potModel target d h = (d.filter fun e => target e.1.1 = some h).map
      fun e => ⟨e.2.1, e.2.2, e.1.2.1, e.1.2.2⟩ := by
  unfold potModel
  induction d using List.reverseRecOn with
  | nil => simp
  | append_singleton l e ih =>
    rw [List.foldl_append, List.foldl_cons, List.foldl_nil, List.filter_append, List.map_append,
      ← ih]
    cases ht : target e.1.1 with
    | none => simp [ht]
    | some q =>
      simp only
      rw [push_apply]
      congr 1
      by_cases hq : h = q
      · simp [ht, hq]
      · simp [ht, hq, Ne.symm hq]

theorem sum_filter {α M : Type} [AddCommMonoid M] (l : List α) (p : α → Bool) (f : α → M) :
    ((l.filter p).map f).sum = (l.map fun x => if p x then f x else 0).sum := by
  induction l with
  | nil => rfl
  | cons a l ih =>
    rw [List.filter_cons]
    by_cases h : p a
    · simp [h, ih]
    · simp [h, ih]

theorem sum_flatMap {α β M : Type} [AddCommMonoid M] (l : List α) (g : α → List β) (f : β → M) :
    ((l.flatMap g).map f).sum = (l.map fun x => ((g x).map f).sum).sum := by
  induction l with
  | nil => rfl
  | cons a l ih => rw [List.flatMap_cons, List.map_append, List.sum_append, ih]; simp

theorem sum_filterMap_ite {α β M : Type} [AddCommMonoid M] (l : List α) (p : α → Bool) (g : α → β)
    (f : β → M) :
    ((l.filterMap fun x => if p x then none else some (g x)).map f).sum =
      (l.map fun x => if p x then 0 else f (g x)).sum := by
  induction l with
  | nil => rfl
  | cons a l ih =>
    rw [List.filterMap_cons]
    by_cases h : p a
    · simp [h, ih]
    · simp [h, ih]

/-- Sum over the list of position `h` of the sorted model in terms of the updates. -/
theorem sorted_sum {M : Type} [AddCommMonoid M] (target : ℕ → Option ℕ)
    (events : List ((ℕ × ℕ × ℕ) × (K × K))) (φ : ℕ → ℕ → (K × K) →+ M) (n h : ℕ) (hn : h < n) :
    (((sortedModel n (potModel target (mergeAdd events))).getD h []).map
      fun t => φ t.pid t.pfid (t.ce, t.cf)).sum =
    (events.map fun e => if target e.1.1 = some h then φ e.1.2.1 e.1.2.2 e.2 else 0).sum := by
  have h1 : (sortedModel n (potModel target (mergeAdd events))).getD h [] =
      (potModel target (mergeAdd events) h).insertionSort ptermLe := by
    unfold sortedModel
    rw [List.getD_eq_getElem?_getD, List.getElem?_map, List.getElem?_range hn]
    rfl
  rw [h1, ((List.perm_insertionSort _ _).map _).sum_eq, potModel_eq, List.map_map, sum_filter]
  let ψ : (ℕ × ℕ × ℕ) → (K × K) →+ M := fun k =>
    if target k.1 = some h then φ k.2.1 k.2.2 else 0
  have h2 := mergeAdd_sum events ψ
  have h3 : ∀ e : (ℕ × ℕ × ℕ) × (K × K),
      ψ e.1 e.2 = if target e.1.1 = some h then φ e.1.2.1 e.1.2.2 e.2 else 0 := by
    intro e
    simp only [ψ]
    split_ifs <;> rfl
  simp only [h3] at h2
  rw [← h2]
  congr 1
  apply List.map_congr_left
  intro e _
  by_cases he : target e.1.1 = some h <;> simp [he]

/-- The sum of the updates, in terms of the features and the polynomial only. -/
theorem potEvents_sum {M : Type} [AddCommMonoid M] (elim : Bool) (isConj : ℕ → Bool)
    (features : List (List (SingleTerm K))) (poly : List (ℕ × List ℕ)) (pot : ℕ → K)
    (f : (ℕ × ℕ × ℕ) × (K × K) → M) :
    ((potEvents elim isConj features poly pot).map f).sum =
      (poly.map fun t => ((List.range t.2.length).map fun i =>
        ((features.getD (t.2.getD i 0) []).map fun s =>
          ((List.range s.2.length).map fun j =>
            if elim && isConj (s.2.getD j 0) then 0
            else f ((s.2.getD j 0, keyId (prodDerivMap features) (eraseKey s.2 j),
                keyId (prodFeaturesMap poly) (eraseKey t.2 i)),
              (pot t.1 * s.1 / (((t.2.map (featureSize features)).sum : ℕ) : K),
                pot t.1 * s.1))).sum).sum).sum).sum := by
  unfold potEvents
  simp only [sum_flatMap]
  congr 1
  apply List.map_congr_left
  intro t _
  congr 1
  apply List.map_congr_left
  intro i _
  congr 1
  apply List.map_congr_left
  intro s _
  exact sum_filterMap_ite _ _ _ _

theorem mem_prodDeriv {features : List (List (SingleTerm K))} {fid : ℕ} {s : SingleTerm K}
    (hs : s ∈ features.getD fid []) {j : ℕ} (hj : j < s.2.length) :
    eraseKey s.2 j ∈ features.flatMap (fun f => f.flatMap fun s =>
      (List.range s.2.length).map fun i => eraseKey s.2 i) := by
  rw [List.getD_eq_getElem?_getD] at hs
  cases hf : features[fid]? with
  | none => rw [hf] at hs; simp at hs
  | some f =>
    rw [hf, Option.getD_some] at hs
    simp only [List.mem_flatMap, List.mem_map, List.mem_range]
    exact ⟨f, List.mem_of_getElem? hf, s, hs, j, hj, rfl⟩

theorem mem_prodFeatures {poly : List (ℕ × List ℕ)} {t : ℕ × List ℕ} (ht : t ∈ poly) {i : ℕ}
    (hi : i < t.2.length) :
    eraseKey t.2 i ∈ poly.flatMap (fun t => (List.range t.2.length).map fun i => eraseKey t.2 i) := by
  simp only [List.mem_flatMap, List.mem_map, List.mem_range]
  exact ⟨t, ht, i, hi, rfl⟩

/-- General form of the sums computed from a potential: the products referred to by the
identifiers are the products of the remaining factors. -/
theorem pot_sum {A : Type} [CommRing A] [Algebra K A] (elim : Bool) (isConj : ℕ → Bool)
    (target : ℕ → Option ℕ) (n : ℕ) (features : List (List (SingleTerm K)))
    (poly : List (ℕ × List ℕ)) (pot : ℕ → K) (F : ℕ → A) (a : ℕ → A) (h : ℕ) (hn : h < n)
    (sel : (K × K) →+ K) :
    ((((mkPot elim isConj target n features poly pot).model).getD h []).map fun t =>
      algebraMap K A (sel (t.ce, t.cf)) *
        (products (prodFeaturesMap poly) F t.pfid * products (prodDerivMap features) a t.pid)).sum =
      (poly.map fun t => ((List.range t.2.length).map fun i =>
        ((features.getD (t.2.getD i 0) []).map fun s =>
          ((List.range s.2.length).map fun j =>
            if elim && isConj (s.2.getD j 0) then 0
            else if target (s.2.getD j 0) = some h then
              algebraMap K A
                (sel (pot t.1 * s.1 / (((t.2.map (featureSize features)).sum : ℕ) : K), pot t.1 * s.1)) *
                (((t.2.eraseIdx i).map F).prod * ((s.2.eraseIdx j).map a).prod)
            else 0).sum).sum).sum).sum := by
  let φ : ℕ → ℕ → (K × K) →+ A := fun pid pfid =>
    (AddMonoidHom.mulRight
      (products (prodFeaturesMap poly) F pfid * products (prodDerivMap features) a pid)).comp
      ((algebraMap K A).toAddMonoidHom.comp sel)
  have h1 := sorted_sum target (potEvents elim isConj features poly pot) φ n h hn
  rw [potEvents_sum] at h1
  have h0 : ∀ t : PTerm K, φ t.pid t.pfid (t.ce, t.cf) = algebraMap K A (sel (t.ce, t.cf)) *
        (products (prodFeaturesMap poly) F t.pfid * products (prodDerivMap features) a t.pid) :=
    fun t => rfl
  simp only [h0] at h1
  rw [mkPot]
  refine h1.trans ?_
  congr 1
  apply List.map_congr_left
  intro t ht
  congr 1
  apply List.map_congr_left
  intro i hi
  congr 1
  apply List.map_congr_left
  intro s hs
  congr 1
  apply List.map_congr_left
  intro j hj
  rw [List.mem_range] at hi hj
  congr 1
  congr 1
  show algebraMap K A (sel _) * _ = _
  congr 1
  unfold prodFeaturesMap prodDerivMap
  rw [products_keyId _ _ _ (mem_prodFeatures ht hi), products_keyId _ _ _ (mem_prodDeriv hs hj),
    eraseKey_prod, eraseKey_prod]

end Verif.Mlp
