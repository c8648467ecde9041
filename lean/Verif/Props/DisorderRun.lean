import Verif.Props.Disorder
import Verif.Props.GridSearchFiles
import Verif.Props.Vasprun

/-! # Occupancies, averages and sessions of disordered models (C92) -/

namespace Verif.Disorder
open Verif.Spec Verif.Spec.GridSearch Verif.StrUtils Verif.GridSearch Verif.Vasprun

variable {K : Type}

/-! ## Occupancies -/

theorem forall₂_left {α β : Type} {R : α → β → Prop} {l : List α} {r : List β} (h : List.Forall₂ R l r) {a : α} (ha : a ∈ l) :
    ∃ b ∈ r, R a b := by
  induction h with
  | nil => simp at ha
  | cons h1 _ ih =>
    rcases List.mem_cons.1 ha with rfl | ha
    · exact ⟨_, List.mem_cons_self, h1⟩
    · obtain ⟨b, hb, hR⟩ := ih ha
      exact ⟨b, List.mem_cons_of_mem _ hb, hR⟩

theorem forall₂_right {α β : Type} {R : α → β → Prop} {l : List α} {r : List β} (h : List.Forall₂ R l r) {b : β} (hb : b ∈ r) :
    ∃ a ∈ l, R a b := by
  induction h with
  | nil => simp at hb
  | cons h1 _ ih =>
    rcases List.mem_cons.1 hb with rfl | hb
    · exact ⟨_, List.mem_cons_self, h1⟩
    · obtain ⟨a, ha, hR⟩ := ih hb
      exact ⟨a, List.mem_cons_of_mem _ ha, hR⟩

/-- The types of one element. -/
def tys (x : String × Bool) : List String := if x.2 then [x.1, x.1] else [x.1]

/-- The flags of spin of one element. -/
def flags (x : String × Bool) : List Bool := if x.2 then [true, true] else [false]

/-- The number of spin. -/
def shift : Key → ℕ
  | .spin _ s => s
  | _ => 0

theorem not_mem_tys {a : String} {es : List (String × Bool)} (h : a ∉ es.map (·.1)) : a ∉ es.flatMap tys := by
  rw [List.mem_flatMap]
  rintro ⟨x, hx, hm⟩
  have : a = x.1 := by
    unfold tys at hm
    split at hm <;> simpa using hm
  exact h (List.mem_map.2 ⟨x, hx, this.symm⟩)

theorem eraseDups_tys : ∀ (es : List (String × Bool)), (es.map (·.1)).Nodup → (es.flatMap tys).eraseDups = es.map (·.1)
  | [], _ => by simp
  | (a, s) :: es, h => by
    rw [List.map_cons, List.nodup_cons] at h
    have ih := eraseDups_tys es h.2
    have hn := not_mem_tys h.1
    have hf : (es.flatMap tys).filter (fun b => !b == a) = es.flatMap tys := by
      rw [List.filter_eq_self]
      intro b hb
      have : b ≠ a := fun e => hn (e ▸ hb)
      simpa using this
    rw [List.flatMap_cons]
    cases s
    · simp only [tys, Bool.false_eq_true, if_false, List.cons_append, List.nil_append, List.map_cons]
      rw [List.eraseDups_cons, hf, ih]
    · simp only [tys, if_true, List.cons_append, List.nil_append, List.map_cons]
      rw [List.eraseDups_cons, List.filter_cons]
      simp only [beq_self_eq_true, Bool.not_true, Bool.false_eq_true, if_false]
      rw [hf, ih]

theorem count_tys : ∀ (es : List (String × Bool)), (es.map (·.1)).Nodup → ∀ x ∈ es,
    (es.flatMap tys).count x.1 = if x.2 then 2 else 1
  | [], _, x, hx => by simp at hx
  | (a, s) :: es, h, x, hx => by
    rw [List.map_cons, List.nodup_cons] at h
    rw [List.flatMap_cons, List.count_append]
    rcases List.mem_cons.1 hx with rfl | hx
    · rw [List.count_eq_zero_of_not_mem (not_mem_tys h.1)]
      cases s <;> simp [tys]
    · rw [count_tys es h.2 x hx]
      have hne : a ≠ x.1 := fun e => h.1 (e ▸ List.mem_map.2 ⟨x, hx, rfl⟩)
      cases s <;> simp [tys, hne]

theorem tys_length (x : String × Bool) : (tys x).length = if x.2 then 2 else 1 := by
  unfold tys
  split <;> rfl

theorem flags_length (x : String × Bool) : (flags x).length = (tys x).length := by
  unfold tys flags
  split <;> rfl

theorem idx_tail {a : String} {s : Bool} {es : List (String × Bool)} {e : String} (hne : e ≠ a) :
    (((a, s) :: es).flatMap tys).idxOf e = (tys (a, s)).length + (es.flatMap tys).idxOf e := by
  rw [List.flatMap_cons, List.idxOf_append, if_neg]
  · rw [Nat.add_comm]
  · unfold tys
    split <;> simpa using hne

theorem idx_head {a : String} {s : Bool} {es : List (String × Bool)} : (((a, s) :: es).flatMap tys).idxOf a = 0 := by
  rw [List.flatMap_cons]
  unfold tys
  split <;> simp

theorem at_idx : ∀ (es : List (String × Bool)), (es.map (·.1)).Nodup → ∀ e s, (e, s) ∈ es →
    (es.flatMap flags)[(es.flatMap tys).idxOf e]? = some s ∧ (es.flatMap tys)[(es.flatMap tys).idxOf e]? = some e ∧
      (s = true → (es.flatMap tys)[(es.flatMap tys).idxOf e + 1]? = some e)
  | [], _, e, s, h => by simp at h
  | (a, s') :: es, h, e, s, hx => by
    rw [List.map_cons, List.nodup_cons] at h
    rcases List.mem_cons.1 hx with he | hx
    · obtain ⟨rfl, rfl⟩ := Prod.mk.inj he
      rw [idx_head]
      cases s <;> simp [tys, flags]
    · have hne : e ≠ a := fun e' => h.1 (e' ▸ List.mem_map.2 ⟨_, hx, rfl⟩)
      obtain ⟨h1, h2, h3⟩ := at_idx es h.2 e s hx
      rw [idx_tail hne]
      simp only [List.flatMap_cons]
      rw [← flags_length (a, s'), List.getElem?_append_right (Nat.le_add_right _ _), Nat.add_sub_cancel_left, h1]
      rw [flags_length, List.getElem?_append_right (Nat.le_add_right _ _), Nat.add_sub_cancel_left, h2]
      refine ⟨rfl, rfl, fun hs => ?_⟩
      rw [Nat.add_assoc, List.getElem?_append_right (Nat.le_add_right _ _), Nat.add_sub_cancel_left]
      exact h3 hs

theorem known_name {es : List (String × Bool)} {k : Key} (h : KnownKey es k) : k.name ∈ es.map (·.1) := by
  cases k with
  | element e => exact List.mem_map.2 ⟨_, h, rfl⟩
  | spin e s => exact List.mem_map.2 ⟨_, h.1, rfl⟩
  | broken e => exact h.elim

theorem lookup_if {α : Type} (k k' : Key) (v : α) (l : List (Key × α)) :
    ((k', v) :: l).lookup k = if k = k' then some v else l.lookup k := by
  rw [List.lookup_cons]
  by_cases h : k = k'
  · subst h
    simp
  · have : (k == k') = false := by simpa using h
    rw [this, if_neg h]

theorem forall₂_and {α β : Type} {P : α → Prop} {R : α → β → Prop} {l : List α} {r : List β} :
    List.Forall₂ (fun a b => P a ∧ R a b) l r ↔ (∀ a ∈ l, P a) ∧ List.Forall₂ R l r := by
  constructor
  · intro hf
    refine ⟨?_, hf.imp fun _ _ hx => hx.2⟩
    intro o ho
    obtain ⟨f, -, hx⟩ := forall₂_left hf ho
    exact hx.1
  · rintro ⟨g1, g2⟩
    induction g2 with
    | nil => exact .nil
    | cons hx _ ih => exact .cons ⟨g1 _ List.mem_cons_self, hx⟩ (ih fun o ho => g1 o (List.mem_cons_of_mem _ ho))

theorem lookup_none {α : Type} {k : Key} {l : List (Key × α)} (h : ∀ x ∈ l, x.1 ≠ k) : l.lookup k = none := by
  induction l with
  | nil => rfl
  | cons a l ih =>
    obtain ⟨k', v⟩ := a
    rw [List.lookup_cons]
    have : (k == k') = false := by simpa using fun e : k = k' => h (k', v) List.mem_cons_self e.symm
    rw [this]
    exact ih fun x hx => h x (List.mem_cons_of_mem _ hx)

theorem typeMap_lookup (p : Pars) : ∀ (es : List (String × Bool)) (t0 : ℕ), (es.map (·.1)).Nodup →
    (∀ x ∈ es, p.elements.count x.1 = if x.2 then 2 else 1) → ∀ k t,
    (typeMap p (es.map (·.1)) t0).lookup k = some t ↔ KnownKey es k ∧ t = t0 + (es.flatMap tys).idxOf k.name + shift k
  | [], t0, _, _, k, t => by
    cases k <;> simp [typeMap, KnownKey]
  | (a, s) :: es, t0, h, hc, k, t => by
    rw [List.map_cons, List.nodup_cons] at h
    have hca := hc (a, s) List.mem_cons_self
    have hlen : (keysOf p a t0).length = (tys (a, s)).length := by
      unfold keysOf
      rw [hca]
      cases s <;> simp [tys]
    have ih := typeMap_lookup p es (t0 + (tys (a, s)).length) h.2 (fun x hx => hc x (List.mem_cons_of_mem _ hx)) k t
    rw [List.map_cons]
    unfold typeMap
    rw [hlen, List.lookup_append]
    by_cases hn : k.name = a
    · have hne : ¬KnownKey es k := fun hk => h.1 (hn ▸ known_name hk)
      have hnone : (typeMap p (es.map (·.1)) (t0 + (tys (a, s)).length)).lookup k = none := by
        rw [Option.eq_none_iff_forall_ne_some]
        intro t' ht'
        exact hne ((typeMap_lookup p es _ h.2 (fun x hx => hc x (List.mem_cons_of_mem _ hx)) k t').1 ht').1
      rw [hnone, Option.or_none, hn, idx_head]
      unfold keysOf
      rw [hca]
      cases k with
      | element e =>
        have hn : e = a := hn
        subst hn
        have hne : (e, false) ∉ es := hne
        cases s
        · simp [KnownKey, shift, eq_comm]
        · simp [KnownKey, hne, lookup_if]
      | spin e n =>
        have hn : e = a := hn
        subst hn
        have hne : (e, true) ∉ es ∨ ¬n < 2 := by
          by_contra hcon
          rw [not_or, not_not, not_not] at hcon
          exact hne hcon
        cases s
        · have : ¬((e, true) ∈ es ∧ n < 2) := by tauto
          simp only [KnownKey, Bool.false_eq_true, if_false, if_true, List.mem_cons, Prod.mk.injEq, true_and,
            reduceCtorEq, false_or, this, false_and, iff_false, lookup_if, List.lookup_nil, not_false_eq_true]
        · simp only [KnownKey, shift]
          rcases n with _ | _ | n
          · simp [lookup_if, eq_comm]
          · simp [lookup_if, eq_comm]
          · simp [lookup_if]
      | broken e =>
        unfold KnownKey
        rw [lookup_none]
        · simp
        · intro x hx
          cases s
          · simp at hx
            rw [hx]
            simp
          · simp at hx
            rcases hx with rfl | rfl <;> simp
    · have hfirst : (keysOf p a t0).lookup k = none := by
        apply lookup_none
        intro x hx he
        apply hn
        unfold keysOf at hx
        rw [← he]
        split at hx
        · simp at hx
          rw [hx]
          rfl
        · simp at hx
          rcases hx with rfl | rfl <;> rfl
      rw [hfirst, Option.none_or, ih, idx_tail hn]
      have : KnownKey ((a, s) :: es) k ↔ KnownKey es k := by
        cases k with
        | element e =>
          have hn : e ≠ a := hn
          simp [KnownKey, hn]
        | spin e n =>
          have hn : e ≠ a := hn
          simp [KnownKey, hn]
        | broken e => simp [KnownKey]
      rw [this]
      constructor <;> rintro ⟨h1, h2⟩ <;> exact ⟨h1, by omega⟩

theorem lookup_isSome_iff {α : Type} (k : Key) (l : List (Key × α)) : (∃ t, l.lookup k = some t) ↔ k ∈ l.map (·.1) := by
  induction l with
  | nil => simp
  | cons a l ih =>
    obtain ⟨k', v⟩ := a
    rw [List.lookup_cons, List.map_cons, List.mem_cons]
    by_cases h : k = k'
    · subst h
      simp
    · have : (k == k') = false := by simpa using h
      rw [this]
      simp only [h, false_or]
      exact ih

theorem checkKey_ok {es : List (String × Bool)} {p : Pars} (h : TypesFor es p) {k : Key} (hk : KnownKey es k) :
    checkKey p k = .ok () := by
  obtain ⟨h1, h2, h3⟩ := h
  have h2 : p.elements = es.flatMap tys := h2
  have hmem : ∀ e s, (e, s) ∈ es → e ∈ p.elements := by
    intro e s hm
    rw [h2, List.mem_flatMap]
    refine ⟨_, hm, ?_⟩
    unfold tys
    split <;> simp
  cases k with
  | element e =>
    simp only [checkKey]
    rw [if_pos (hmem e _ hk)]
  | spin e n =>
    have hk : (e, true) ∈ es ∧ n < 2 := hk
    simp only [checkKey]
    rw [if_pos (hmem e _ hk.1)]
    rcases h3 with h3 | h3
    · exact absurd (h3.2 _ hk.1) (by simp)
    · have h3 : p.enableSpins = some (es.flatMap flags) := h3
      rw [h3, h2]
      simp only [orErr, bind, Except.bind, (at_idx es h1 e true hk.1).1, if_true]
  | broken e => exact hk.elim

theorem mapM_unit {α : Type} {f : α → Except Err Unit} {l : List α} : (∃ u, l.mapM f = .ok u) ↔ ∀ a ∈ l, f a = .ok () := by
  constructor
  · rintro ⟨u, hu⟩ a ha
    rw [mapM_iff] at hu
    obtain ⟨b, -, hb⟩ := forall₂_left hu ha
    exact hb
  · intro h
    refine ⟨l.map fun _ => (), ?_⟩
    rw [mapM_iff, List.forall₂_map_right_iff, List.forall₂_same]
    exact h

/-- **C92.** An occupancy is accepted exactly when the probabilities of each sublattice add up to one (to about 10⁻⁵), only types
of the potential are named and all of them are, and every entry gets its type. -/
theorem C92_occupancy (es : List (String × Bool)) (p : Pars) (h : TypesFor es p) (occ : List (List (Key × ℚ)))
    (full : List (List (String × ℕ × ℚ))) :
    setFullOccupancy p occ = .ok full ↔
      (∀ sub ∈ occ, |(sub.map (·.2)).sum - 1| ≤ 1001 / 10 ^ 8) ∧ (∀ o ∈ occ.flatten, KnownKey es o.1) ∧
      (∀ k, KnownKey es k → ∃ o ∈ occ.flatten, o.1 = k) ∧
      List.Forall₂ (List.Forall₂ fun o f => f.1 = o.1.name ∧ TypeOfKey p o.1 f.2.1 ∧ f.2.2 = o.2) occ full := by
  obtain ⟨h1, h2, h3⟩ := h
  have h2' : p.elements = es.flatMap tys := h2
  have hc : ∀ x ∈ es, p.elements.count x.1 = if x.2 then 2 else 1 := by
    intro x hx
    rw [h2']
    exact count_tys es h1 x hx
  have hm : ∀ k t, (typeMap p p.elements.eraseDups 0).lookup k = some t ↔ KnownKey es k ∧ TypeOfKey p k t := by
    intro k t
    have he : p.elements.eraseDups = es.map (·.1) := by rw [h2', eraseDups_tys es h1]
    rw [he, typeMap_lookup p es 0 h1 hc k t, Nat.zero_add, ← h2']
    cases k with
    | element e => simp [TypeOfKey, Key.name, shift]
    | spin e n => simp [TypeOfKey, Key.name, shift]
    | broken e => simp [KnownKey]
  have hall : ((typeMap p p.elements.eraseDups 0).all fun k => (occ.flatten.map (·.1)).contains k.1) = true ↔
      ∀ k, KnownKey es k → ∃ o ∈ occ.flatten, o.1 = k := by
    rw [List.all_eq_true]
    constructor
    · intro hall k hk
      have hex : ∃ t, TypeOfKey p k t := by
        cases k with
        | element e => exact ⟨_, rfl⟩
        | spin e n => exact ⟨_, rfl⟩
        | broken e => exact hk.elim
      obtain ⟨t, ht⟩ := hex
      have := (lookup_isSome_iff k _).1 ⟨t, (hm k t).2 ⟨hk, ht⟩⟩
      obtain ⟨x, hx, rfl⟩ := List.mem_map.1 this
      have := hall x hx
      rw [List.contains_iff_mem, List.mem_map] at this
      exact this
    · intro hk x hx
      rw [List.contains_iff_mem, List.mem_map]
      obtain ⟨t, ht⟩ := (lookup_isSome_iff x.1 _).2 (List.mem_map.2 ⟨x, hx, rfl⟩)
      exact hk x.1 ((hm _ _).1 ht).1
  have hsum : ∀ sub : List (Key × ℚ), sumsToOne (sub.map (·.2)) = true ↔ |(sub.map (·.2)).sum - 1| ≤ 1001 / 10 ^ 8 := by
    intro sub
    unfold sumsToOne
    rw [decide_eq_true_eq]
    norm_num
  have hmap : ∀ r, (occ.mapM fun occ => occ.mapM fun o => do
      let t ← orErr .keyError ((typeMap p p.elements.eraseDups 0).lookup o.1)
      return ((o.1.name, t, o.2) : String × ℕ × ℚ)) = .ok r ↔
      (∀ o ∈ occ.flatten, KnownKey es o.1) ∧
      List.Forall₂ (List.Forall₂ fun o f => f.1 = o.1.name ∧ TypeOfKey p o.1 f.2.1 ∧ f.2.2 = o.2) occ r := by
    intro r
    rw [mapM_iff]
    have hone : ∀ (o : Key × ℚ) (f : String × ℕ × ℚ), (do
        let t ← orErr .keyError ((typeMap p p.elements.eraseDups 0).lookup o.1)
        return ((o.1.name, t, o.2) : String × ℕ × ℚ) : Except Err (String × ℕ × ℚ)) = .ok f ↔
        KnownKey es o.1 ∧ f.1 = o.1.name ∧ TypeOfKey p o.1 f.2.1 ∧ f.2.2 = o.2 := by
      intro o f
      obtain ⟨f1, f2, f3⟩ := f
      cases hl : (typeMap p p.elements.eraseDups 0).lookup o.1 with
      | none =>
        simp only [orErr, bind, Except.bind, reduceCtorEq, false_iff]
        rintro ⟨g1, -, g2, -⟩
        have := (hm _ _).2 ⟨g1, g2⟩
        rw [hl] at this
        simp at this
      | some t =>
        simp only [orErr, bind, Except.bind, pure, Except.pure, Except.ok.injEq, Prod.mk.injEq]
        have ht := (hm _ _).1 hl
        constructor
        · rintro ⟨rfl, rfl, rfl⟩
          exact ⟨ht.1, rfl, ht.2, rfl⟩
        · rintro ⟨g1, rfl, g2, rfl⟩
          have := (hm _ _).2 ⟨g1, g2⟩
          rw [hl] at this
          exact ⟨rfl, Option.some.inj this, rfl⟩
    have hsub : ∀ (a : List (Key × ℚ)) (b : List (String × ℕ × ℚ)), (a.mapM fun o => do
        let t ← orErr .keyError ((typeMap p p.elements.eraseDups 0).lookup o.1)
        return ((o.1.name, t, o.2) : String × ℕ × ℚ)) = .ok b ↔
        (∀ o ∈ a, KnownKey es o.1) ∧
        List.Forall₂ (fun o f => f.1 = o.1.name ∧ TypeOfKey p o.1 f.2.1 ∧ f.2.2 = o.2) a b := by
      intro a b
      rw [mapM_iff]
      simp only [hone]
      exact forall₂_and
    simp only [hsub]
    rw [forall₂_and]
    have : (∀ a ∈ occ, ∀ o ∈ a, KnownKey es o.1) ↔ ∀ o ∈ occ.flatten, KnownKey es o.1 := by
      simp only [List.mem_flatten]
      constructor
      · rintro h o ⟨a, ha, ho⟩
        exact h a ha o ho
      · intro h a ha o ho
        exact h o ⟨a, ha, ho⟩
    rw [this]
  have hcheck : (∃ u, occ.mapM (checkOcc p) = .ok u) ↔ ∀ sub ∈ occ, |(sub.map (·.2)).sum - 1| ≤ 1001 / 10 ^ 8 ∧
      ∀ o ∈ sub, checkKey p o.1 = .ok () := by
    rw [mapM_unit]
    apply forall₂_congr
    intro sub _
    rw [← hsum]
    unfold checkOcc
    by_cases hs : sumsToOne (sub.map (·.2)) = true
    · rw [if_pos hs]
      simp only [hs, true_and]
      rw [← mapM_unit]
      simp only [bind, Except.bind, pure, Except.pure]
      cases sub.mapM fun o => checkKey p o.1 <;> simp
    · rw [if_neg hs]
      simp [hs]
  unfold setFullOccupancy
  constructor
  · intro hok
    cases hu : occ.mapM (checkOcc p) with
    | error e => simp [hu, bind, Except.bind] at hok
    | ok u =>
      simp only [hu, bind, Except.bind] at hok
      split at hok
      · rename_i ha
        have g := (hmap full).1 hok
        exact ⟨fun sub hs => (hcheck.1 ⟨u, hu⟩ sub hs).1, g.1, hall.1 ha, g.2⟩
      · simp at hok
  · rintro ⟨g1, g2, g3, g4⟩
    obtain ⟨u, hu⟩ := hcheck.2 fun sub hs => ⟨g1 sub hs, fun o ho =>
      checkKey_ok ⟨h1, h2, h3⟩ (g2 o (List.mem_flatten.2 ⟨sub, hs, ho⟩))⟩
    simp only [hu, bind, Except.bind]
    rw [if_pos (hall.2 g3)]
    exact (hmap full).2 ⟨g2, g4⟩

theorem mapM_one_error {α : Type} {f : α → Except Err Unit} {e0 : Err} : ∀ {l : List α},
    (∀ a ∈ l, f a = .ok () ∨ f a = .error e0) → (∃ a ∈ l, f a ≠ .ok ()) → l.mapM f = .error e0
  | [], _, h => by simp at h
  | a :: l, h, hex => by
    rw [List.mapM_cons]
    rcases h a (by simp) with h1 | h1
    · rw [h1]
      have h2 : ∃ x ∈ l, f x ≠ .ok () := by
        obtain ⟨x, hx, hn⟩ := hex
        rcases List.mem_cons.1 hx with rfl | hx
        · exact absurd h1 hn
        · exact ⟨x, hx, hn⟩
      have := mapM_one_error (fun x hx => h x (List.mem_cons_of_mem _ hx)) h2
      simp only [bind, Except.bind, this]
    · rw [h1]; rfl

/-- **C92.** With spins in the potential, an occupancy is refused with a `RuntimeError` exactly when probabilities of a sublattice
do not add up to one, or something is named that is not an element of the potential or not a spin of an element with spins. -/
theorem C92_occupancy_refused (es : List (String × Bool)) (p : Pars) (h : TypesFor es p) (hs : p.enableSpins ≠ none)
    (occ : List (List (Key × ℚ))) :
    setFullOccupancy p occ = .error .runtimeError ↔
      (∃ sub ∈ occ, 1001 / 10 ^ 8 < |(sub.map (·.2)).sum - 1|) ∨ ∃ o ∈ occ.flatten, ¬ NamesElement es o.1 := by
  obtain ⟨h1, h2, h3⟩ := h
  have h3 : p.enableSpins = some (es.flatMap flags) := by
    rcases h3 with h3 | h3
    · exact absurd h3.1 hs
    · exact h3
  have hmem : ∀ e, e ∈ p.elements ↔ ∃ b, (e, b) ∈ es := by
    intro e
    rw [h2, List.mem_flatMap]
    constructor
    · rintro ⟨⟨e', b⟩, hx, he⟩
      refine ⟨b, ?_⟩
      cases b <;> simp at he <;> rw [he] <;> exact hx
    · rintro ⟨b, hx⟩
      exact ⟨_, hx, by cases b <;> simp⟩
  have hflag : ∀ e b, (e, b) ∈ es → (es.flatMap flags)[p.elements.idxOf e]? = some b := by
    intro e b hb
    have := (at_idx es h1 e b hb).1
    rw [h2]
    exact this
  have huniq : ∀ e, (e, true) ∈ es → (e, false) ∈ es → False := by
    intro e ht hf
    have := List.inj_on_of_nodup_map h1 ht hf rfl
    simp at this
  have hkey : ∀ k, (NamesElement es k → checkKey p k = .ok ()) ∧ (¬ NamesElement es k → checkKey p k = .error .runtimeError) := by
    intro k
    cases k with
    | element e =>
      simp only [NamesElement, checkKey, ← hmem e]
      exact ⟨fun hk => if_pos hk, fun hk => if_neg hk⟩
    | spin e n =>
      simp only [NamesElement, checkKey, h3, orErr, bind, Except.bind]
      constructor
      · intro hk
        rw [if_pos ((hmem e).2 ⟨_, hk⟩), hflag e true hk]
        rfl
      · intro hk
        by_cases he : e ∈ p.elements
        · rw [if_pos he]
          obtain ⟨b, hb⟩ := (hmem e).1 he
          cases b with
          | true => exact absurd hb hk
          | false => rw [hflag e false hb]; rfl
        · rw [if_neg he]
    | broken e => exact ⟨fun hk => hk.elim, fun _ => rfl⟩
  have hsum : ∀ sub : List (Key × ℚ), sumsToOne (sub.map (·.2)) = true ↔ |(sub.map (·.2)).sum - 1| ≤ 1001 / 10 ^ 8 := by
    intro sub
    unfold sumsToOne
    rw [decide_eq_true_eq]
    norm_num
  have hocc : ∀ sub : List (Key × ℚ),
      ((|(sub.map (·.2)).sum - 1| ≤ 1001 / 10 ^ 8 ∧ ∀ o ∈ sub, NamesElement es o.1) → checkOcc p sub = .ok ()) ∧
      (¬ (|(sub.map (·.2)).sum - 1| ≤ 1001 / 10 ^ 8 ∧ ∀ o ∈ sub, NamesElement es o.1) →
        checkOcc p sub = .error .runtimeError) := by
    intro sub
    rw [← hsum]
    unfold checkOcc
    by_cases hq : sumsToOne (sub.map (·.2)) = true
    · rw [if_pos hq]
      by_cases hall : ∀ o ∈ sub, NamesElement es o.1
      · obtain ⟨u, hu⟩ := (mapM_unit (f := fun o : Key × ℚ => checkKey p o.1) (l := sub)).2
          fun o ho => (hkey o.1).1 (hall o ho)
        simp only [hu, bind, Except.bind, pure, Except.pure]
        exact ⟨fun _ => trivial, fun hc => absurd ⟨hq, hall⟩ hc⟩
      · have hu : sub.mapM (fun o : Key × ℚ => checkKey p o.1) = .error .runtimeError := by
          apply mapM_one_error
          · intro o _
            by_cases hn : NamesElement es o.1
            · exact .inl ((hkey _).1 hn)
            · exact .inr ((hkey _).2 hn)
          · push Not at hall
            obtain ⟨o, ho, hn⟩ := hall
            exact ⟨o, ho, by rw [(hkey _).2 hn]; simp⟩
        rw [hu]
        exact ⟨fun hc => absurd hc.2 hall, fun _ => rfl⟩
    · rw [if_neg hq]
      exact ⟨fun hc => absurd hc.1 hq, fun _ => rfl⟩
  have hiff : ((∃ sub ∈ occ, 1001 / 10 ^ 8 < |(sub.map (·.2)).sum - 1|) ∨ ∃ o ∈ occ.flatten, ¬ NamesElement es o.1) ↔
      ∃ sub ∈ occ, ¬ (|(sub.map (·.2)).sum - 1| ≤ 1001 / 10 ^ 8 ∧ ∀ o ∈ sub, NamesElement es o.1) := by
    constructor
    · rintro (⟨sub, h4, h5⟩ | ⟨o, h4, h5⟩)
      · exact ⟨sub, h4, fun hc => absurd hc.1 (not_le.2 h5)⟩
      · obtain ⟨sub, h6, h7⟩ := List.mem_flatten.1 h4
        exact ⟨sub, h6, fun hc => h5 (hc.2 o h7)⟩
    · rintro ⟨sub, h4, h5⟩
      by_cases h6 : |(sub.map (·.2)).sum - 1| ≤ 1001 / 10 ^ 8
      · right
        have h7 : ¬ ∀ o ∈ sub, NamesElement es o.1 := fun hc => h5 ⟨h6, hc⟩
        push Not at h7
        obtain ⟨o, ho, hn⟩ := h7
        exact ⟨o, List.mem_flatten.2 ⟨sub, h4, ho⟩, hn⟩
      · left
        exact ⟨sub, h4, not_le.1 h6⟩
  rw [hiff]
  unfold setFullOccupancy
  by_cases hbad : ∃ sub ∈ occ, ¬ (|(sub.map (·.2)).sum - 1| ≤ 1001 / 10 ^ 8 ∧ ∀ o ∈ sub, NamesElement es o.1)
  · have hu : occ.mapM (checkOcc p) = .error .runtimeError := by
      apply mapM_one_error
      · intro sub _
        by_cases hc : |(sub.map (·.2)).sum - 1| ≤ 1001 / 10 ^ 8 ∧ ∀ o ∈ sub, NamesElement es o.1
        · exact .inl ((hocc sub).1 hc)
        · exact .inr ((hocc sub).2 hc)
      · obtain ⟨sub, hsub, hc⟩ := hbad
        exact ⟨sub, hsub, by rw [(hocc sub).2 hc]; simp⟩
    rw [hu]
    exact ⟨fun _ => hbad, fun _ => rfl⟩
  · refine ⟨fun hok => ?_, fun hc => absurd hc hbad⟩
    exfalso
    obtain ⟨u, hu⟩ := (mapM_unit (f := checkOcc p) (l := occ)).2 fun sub hsub => (hocc sub).1 (by
      by_contra hc
      exact hbad ⟨sub, hsub, hc⟩)
    simp only [hu, bind, Except.bind] at hok
    split at hok
    · have hne : ∀ {β : Type} (f : Key × ℚ → Except Err β) (l : List (Key × ℚ)),
          (∀ o, f o ≠ .error .runtimeError) → l.mapM f ≠ .error .runtimeError := by
        intro β f l hf
        induction l with
        | nil => intro hc; cases hc
        | cons o l ih =>
          rw [List.mapM_cons]
          intro hc
          cases ho : f o with
          | error e =>
            rw [ho] at hc
            simp only [bind, Except.bind] at hc
            rw [Except.error.inj hc] at ho
            exact hf o ho
          | ok b =>
            rw [ho] at hc
            simp only [bind, Except.bind, pure, Except.pure] at hc
            cases hl : l.mapM f with
            | error e =>
              rw [hl] at hc
              simp only at hc
              rw [Except.error.inj hc] at hl
              exact ih hl
            | ok bs => rw [hl] at hc; simp at hc
      have hne2 : ∀ {β : Type} (f : List (Key × ℚ) → Except Err β) (l : List (List (Key × ℚ))),
          (∀ o, f o ≠ .error .runtimeError) → l.mapM f ≠ .error .runtimeError := by
        intro β f l hf
        induction l with
        | nil => intro hc; cases hc
        | cons o l ih =>
          rw [List.mapM_cons]
          intro hc
          cases ho : f o with
          | error e =>
            rw [ho] at hc
            simp only [bind, Except.bind] at hc
            rw [Except.error.inj hc] at ho
            exact hf o ho
          | ok b =>
            rw [ho] at hc
            simp only [bind, Except.bind, pure, Except.pure] at hc
            cases hl : l.mapM f with
            | error e =>
              rw [hl] at hc
              simp only at hc
              rw [Except.error.inj hc] at hl
              exact ih hl
            | ok bs => rw [hl] at hc; simp at hc
      revert hok
      apply hne2
      intro sub
      apply hne
      intro o
      cases (typeMap p p.elements.eraseDups 0).lookup o.1 <;> simp [orErr, pure, Except.pure]
    · simp at hok

/-- **C92.** The type of an entry is a type of its element. -/
theorem C92_occupancy_types (es : List (String × Bool)) (p : Pars) (h : TypesFor es p) (occ : List (List (Key × ℚ)))
    (full : List (List (String × ℕ × ℚ))) (hok : setFullOccupancy p occ = .ok full) :
    ∀ o ∈ full.flatten, p.elements[o.2.1]? = some o.1 := by
  obtain ⟨-, g2, -, g4⟩ := (C92_occupancy es p h occ full).1 hok
  obtain ⟨h1, h2, h3⟩ := h
  have h2 : p.elements = es.flatMap tys := h2
  intro o ho
  obtain ⟨sub, hsub, ho⟩ := List.mem_flatten.1 ho
  obtain ⟨sub', hs', hf⟩ := forall₂_right g4 hsub
  obtain ⟨o', ho', e1, e2, e3⟩ := forall₂_right hf ho
  have hk := g2 o' (List.mem_flatten.2 ⟨sub', hs', ho'⟩)
  rw [e1]
  generalize o'.1 = k at hk e2
  cases k with
  | element e =>
    have e2 : o.2.1 = p.elements.idxOf e := e2
    rw [e2, h2]
    exact (at_idx es h1 e false hk).2.1
  | spin e n =>
    have e2 : o.2.1 = p.elements.idxOf e + n := e2
    have hk : (e, true) ∈ es ∧ n < 2 := hk
    rw [e2, h2]
    obtain ⟨-, k1, k2⟩ := at_idx es h1 e true hk.1
    rcases n with _ | _ | n
    · exact k1
    · exact k2 rfl
    · exact absurd hk.2 (by omega)
  | broken e => exact hk.elim

/-! ## Averages -/

theorem set_get {α : Type} : ∀ (l : List (ℕ × α)) (acc : List α), (l.map (·.1)).Nodup →
    (l.foldl (fun acc p => acc.set p.1 p.2) acc).length = acc.length ∧
    (∀ p ∈ l, p.1 < acc.length → (l.foldl (fun acc p => acc.set p.1 p.2) acc)[p.1]? = some p.2) ∧
    (∀ i, i ∉ l.map (·.1) → (l.foldl (fun acc p => acc.set p.1 p.2) acc)[i]? = acc[i]?)
  | [], acc, _ => ⟨rfl, by simp, fun _ _ => rfl⟩
  | a :: l, acc, h => by
    rw [List.map_cons, List.nodup_cons] at h
    obtain ⟨h1, h2, h3⟩ := set_get l (acc.set a.1 a.2) h.2
    rw [List.length_set] at h1 h2
    rw [List.foldl_cons]
    refine ⟨h1, ?_, ?_⟩
    · intro p hp hlt
      rcases List.mem_cons.1 hp with rfl | hp
      · rw [h3 p.1 h.1, List.getElem?_set_self hlt]
      · exact h2 p hp hlt
    · intro i hi
      rw [List.map_cons, List.mem_cons, not_or] at hi
      rw [h3 i hi.2, List.getElem?_set_ne (fun e => hi.1 e.symm)]

theorem reorderBack_get (f : List (V3 ℝ)) (ids : List ℕ) (h : ids.Perm (List.range f.length)) :
    (reorderBack f ids).length = f.length ∧ ∀ (j i : ℕ), ids[j]? = some i → (reorderBack f ids)[i]? = f[j]? := by
  have hlen : ids.length = f.length := by rw [h.length_eq, List.length_range]
  have hm : (ids.zip f).map (·.1) = ids := List.map_fst_zip (by omega)
  have hnd : ids.Nodup := h.nodup_iff.2 List.nodup_range
  obtain ⟨h1, h2, -⟩ := set_get (ids.zip f) (List.replicate f.length ⟨0, 0, 0⟩) (by rw [hm]; exact hnd)
  rw [List.length_replicate] at h1 h2
  refine ⟨h1, ?_⟩
  intro j i hj
  have hlt := (List.getElem?_eq_some_iff.1 hj).1
  have hi : i < f.length := by
    have := h.mem_iff.1 (List.mem_of_getElem? hj)
    exact List.mem_range.1 this
  have hmem : (i, f[j]'(by omega)) ∈ ids.zip f := by
    apply List.mem_of_getElem? (i := j)
    rw [List.getElem?_zip_eq_some]
    exact ⟨hj, List.getElem?_eq_getElem _⟩
  unfold reorderBack
  rw [h2 _ hmem hi, List.getElem?_eq_getElem (by omega)]

theorem random_det {r : Rand} (hr : FairRand r) {lattice : Structure K} {occ : List (List (String × ℕ × ℚ))} {calls : ℕ}
    (hs : Suitable lattice occ) (hf : ∀ x ∈ lattice.nAtoms.zip occ, Fills x.1 x.2) {s : ℕ × Structure K × List ℕ}
    (h : randomStructure r lattice occ calls = .ok s) : RandomStructure lattice occ s.2.1 s.2.2 := by
  obtain ⟨c', st, ids, e, hR⟩ := C92_random r hr lattice occ calls hs hf
  rw [e] at h
  obtain rfl := Except.ok.inj h
  exact hR

theorem generate_spec {r : Rand} (hr : FairRand r) {lattice : Structure K} {occ : List (List (String × ℕ × ℚ))}
    (hs : Suitable lattice occ) (hf : ∀ x ∈ lattice.nAtoms.zip occ, Fills x.1 x.2) : ∀ (n calls : ℕ),
    ∃ c g, generate r lattice occ n calls = .ok (c, g) ∧ g.length = n ∧ ∀ s ∈ g, RandomStructure lattice occ s.1 s.2
  | 0, calls => ⟨calls, [], rfl, rfl, by simp⟩
  | n + 1, calls => by
    obtain ⟨c', st, ids, e, hR⟩ := C92_random r hr lattice occ calls hs hf
    obtain ⟨c, g, e2, h1, h2⟩ := generate_spec hr hs hf n c'
    refine ⟨c, (st, ids) :: g, ?_, by simp [h1], ?_⟩
    · unfold generate
      simp only [bind, Except.bind, pure, Except.pure, e, e2]
    · intro s hs
      rcases List.mem_cons.1 hs with rfl | hs
      · exact hR
      · exact h2 s hs

/-- A potential gives a force for every atom. -/
def ForceEach (eval : Structure K → Except Err Values) : Prop :=
  ∀ st w, eval st = .ok w → w.forces.length = st.positions.length

theorem random_length {lattice : Structure K} {occ : List (List (String × ℕ × ℚ))} {st : Structure K} {ids : List ℕ}
    (h : RandomStructure lattice occ st ids) : st.positions.length = lattice.positions.length := by
  obtain ⟨h1, -, -, -, h2, -⟩ := h
  have : st.positions.map some = ids.map (lattice.positions[·]?) := by
    rw [h2]
    have hall : ∀ i ∈ ids, i < lattice.positions.length := fun i hi => List.mem_range.1 (h1.mem_iff.1 hi)
    clear h1 h2
    induction ids with
    | nil => rfl
    | cons a ids ih =>
      have ha := hall a List.mem_cons_self
      rw [List.filterMap_cons, List.getElem?_eq_getElem ha]
      simp only [List.map_cons, ih fun i hi => hall i (List.mem_cons_of_mem _ hi)]
      rw [List.getElem?_eq_getElem ha]
  have := congrArg List.length this
  rw [List.length_map, List.length_map, h1.length_eq, List.length_range] at this
  exact this

theorem evalSubs_spec {eval : Structure K → Except Err Values} (he : ForceEach eval) {r : Rand} (hr : FairRand r)
    {lattice : Structure K} {occ : List (List (String × ℕ × ℚ))} (hs : Suitable lattice occ)
    (hf : ∀ x ∈ lattice.nAtoms.zip occ, Fills x.1 x.2) (n calls : ℕ) {c : ℕ} {vs : List Values}
    (h : evalSubs eval r lattice occ n calls = .ok (c, vs)) : vs.length = n ∧ ∀ v ∈ vs, SampleOf eval lattice occ v := by
  obtain ⟨c', g, e, h1, h2⟩ := generate_spec hr hs hf n calls
  unfold evalSubs at h
  simp only [bind, Except.bind, pure, Except.pure, e] at h
  cases hm : g.mapM fun s => eval s.1 with
  | error e => simp [hm] at h
  | ok ws =>
    simp only [hm, Except.ok.injEq, Prod.mk.injEq] at h
    obtain ⟨rfl, rfl⟩ := h
    rw [mapM_iff] at hm
    refine ⟨by rw [List.length_zipWith, ← hm.length_eq, h1, Nat.min_self], ?_⟩
    clear e h1
    induction hm with
    | nil => simp
    | @cons s w g ws hw _ ih =>
      intro v hv
      rw [List.zipWith_cons_cons] at hv
      rcases List.mem_cons.1 hv with rfl | hv
      · have hR := h2 s List.mem_cons_self
        have hlen : w.forces.length = lattice.positions.length := (he _ _ hw).trans (random_length hR)
        have := reorderBack_get w.forces s.2 (by rw [hlen]; exact hR.1)
        exact ⟨s.1, s.2, w, hR, hw, rfl, rfl, this.1.trans hlen, this.2⟩
      · exact ih (fun s hs => h2 s (List.mem_cons_of_mem _ hs)) v hv

/-- The average energy of batches. -/
noncomputable def aveE (B : List (List Values)) : ℝ := mean (B.flatten.map (·.energy))

theorem isMean_iff {l : List ℝ} {x : ℝ} (h : l ≠ []) : IsMean l x ↔ x = mean l := by
  have hl : (l.length : ℝ) ≠ 0 := by
    rw [Nat.cast_ne_zero]
    exact fun e => h (List.length_eq_zero_iff.1 e)
  unfold IsMean mean
  rw [eq_div_iff hl]
  exact ⟨fun g => g.2, fun g => ⟨h, g⟩⟩

theorem isMean_eq {l : List ℝ} {x : ℝ} (h : IsMean l x) : x = mean l := (isMean_iff h.1).1 h

/-- What holds in the loop. -/
structure Inv (lattice : Structure K) (etol : ℝ) (B : List (List Values)) (diff : ℝ) (prev : Option ℝ) : Prop where
  prev_eq : prev = if B = [] then none else some (aveE B)
  diff_eq : diff = if 2 ≤ B.length then |aveE B - aveE B.dropLast| / (lattice.nAtoms.sum : ℕ) else etol + 1
  going : ∀ k, 1 ≤ k → k + 1 < B.length → etol < |aveE (B.take (k + 1)) - aveE (B.take k)| / (lattice.nAtoms.sum : ℕ)

theorem loop_spec (eval : Structure K → Except Err Values) (r : Rand) (lattice : Structure K)
    (occ : List (List (String × ℕ × ℚ))) (n : ℕ) (etol : ℝ) (good : List Values → Prop)
    (hgood : ∀ c c' vs, evalSubs eval r lattice occ n c = .ok (c', vs) → good vs) :
    ∀ (left : ℕ) (diff : ℝ) (prev : Option ℝ) (c : ℕ) (B : List (List Values)), Inv lattice etol B diff prev →
      (∀ b ∈ B, good b) → ∀ res, loop eval r lattice occ n etol left diff prev (c, B.flatten) = .ok res →
      ∃ B' diff', res.2.2 = B'.flatten ∧ (∀ b ∈ B', good b) ∧ Inv lattice etol B' diff' res.1 ∧
        B.length ≤ B'.length ∧ B'.length ≤ B.length + left ∧
        (B'.length = B.length + left ∨ 2 ≤ B'.length ∧ |aveE B' - aveE B'.dropLast| / (lattice.nAtoms.sum : ℕ) ≤ etol) := by
  intro left
  induction left with
  | zero =>
    intro diff prev c B hI hB res h
    unfold loop at h
    obtain rfl := Except.ok.inj h
    exact ⟨B, diff, rfl, hB, hI, Nat.le_refl _, Nat.le_refl _, Or.inl rfl⟩
  | succ left ih =>
    intro diff prev c B hI hB res h
    unfold loop at h
    by_cases hd : diff > etol
    · rw [if_pos hd] at h
      simp only [bind, Except.bind] at h
      cases hv : evalSubs eval r lattice occ n c with
      | error e => simp [hv] at h
      | ok v =>
        obtain ⟨c', vs⟩ := v
        simp only [hv] at h
        have hflat : B.flatten ++ vs = (B ++ [vs]).flatten := by simp
        rw [hflat] at h
        have hI' : Inv lattice etol (B ++ [vs]) (nextDiff diff (aveE (B ++ [vs])) lattice.nAtoms.sum prev) (some (aveE (B ++ [vs]))) := by
          refine ⟨by simp, ?_, ?_⟩
          · rw [hI.prev_eq]
            by_cases hB0 : B = []
            · subst hB0
              simpa [nextDiff] using hI.diff_eq
            · have : 2 ≤ (B ++ [vs]).length := by
                have := List.length_pos_iff.2 hB0
                rw [List.length_append, List.length_singleton]
                omega
              rw [if_neg hB0, if_pos this, List.dropLast_concat]
              rfl
          · intro k hk hk'
            rw [List.length_append, List.length_singleton] at hk'
            by_cases hlast : k + 1 < B.length
            · rw [List.take_append_of_le_length (by omega), List.take_append_of_le_length (by omega)]
              exact hI.going k hk hlast
            · have hkl : k + 1 = B.length := by omega
              have hde := hI.diff_eq
              rw [if_pos (by omega)] at hde
              rw [List.take_append_of_le_length (by omega), List.take_append_of_le_length (by omega), hkl,
                List.take_length]
              have hdl : B.dropLast = B.take k := by
                rw [List.dropLast_eq_take]
                congr 1
                omega
              rw [← hdl, ← hde]
              exact hd
        obtain ⟨B', diff', g1, g2, g3, g4, g5, g6⟩ := ih _ _ c' (B ++ [vs]) hI' (by
          intro b hb
          rcases List.mem_append.1 hb with hb | hb
          · exact hB b hb
          · rw [List.mem_singleton] at hb
            rw [hb]
            exact hgood _ _ _ hv) res h
        rw [List.length_append, List.length_singleton] at g4 g5 g6
        refine ⟨B', diff', g1, g2, g3, by omega, by omega, ?_⟩
        rcases g6 with g6 | g6
        · exact Or.inl (by omega)
        · exact Or.inr g6
    · rw [if_neg hd] at h
      obtain rfl := Except.ok.inj h
      refine ⟨B, diff, rfl, hB, hI, Nat.le_refl _, by omega, Or.inr ?_⟩
      have hde := hI.diff_eq
      by_cases h2 : 2 ≤ B.length
      · rw [if_pos h2] at hde
        exact ⟨h2, by rw [← hde]; exact not_lt.1 hd⟩
      · rw [if_neg h2] at hde
        exfalso
        apply hd
        rw [hde]
        linarith

theorem map_ne_nil {α β : Type} {f : α → β} {l : List α} (h : l ≠ []) : l.map f ≠ [] := by simpa using h

theorem flatten_ne {B : List (List Values)} {n : ℕ} (hn : 0 < n) (h : ∀ b ∈ B, b.length = n) (hB : B ≠ []) : B.flatten ≠ [] := by
  obtain ⟨b, B', rfl⟩ := List.exists_cons_of_ne_nil hB
  have hb := h b List.mem_cons_self
  intro e
  rw [List.flatten_cons, List.append_eq_nil_iff] at e
  rw [e.1] at hb
  simp at hb
  omega

/-- **C92.** The properties of a lattice are averages over random structures, in batches that are added until the average energy
changes little or the number of iterations is reached. -/
theorem C92_average (eval : Structure K → Except Err Values) (he : ForceEach eval) (r : Rand) (hr : FairRand r)
    (lattice : Structure K) (occ : List (List (String × ℕ × ℚ))) (hs : Suitable lattice occ)
    (hf : ∀ x ∈ lattice.nAtoms.zip occ, Fills x.1 x.2) (n maxIter : ℕ) (hn : 0 < n) (etol : ℝ) (calls c : ℕ) (v : Values)
    (h : evalSingle eval r lattice occ n maxIter etol calls = .ok (c, v)) :
    Averaged eval occ n maxIter etol lattice v := by
  unfold evalSingle at h
  simp only [bind, Except.bind, pure, Except.pure] at h
  cases hl : loop eval r lattice occ n etol maxIter (etol + 1) none (calls, []) with
  | error e => simp [hl] at h
  | ok res =>
    simp only [hl] at h
    obtain ⟨B, diff, g1, g2, g3, -, g5, g6⟩ := loop_spec eval r lattice occ n etol
      (fun b => b.length = n ∧ ∀ x ∈ b, SampleOf eval lattice occ x) (fun c c' vs hv => evalSubs_spec he hr hs hf n c hv)
      maxIter (etol + 1) none calls [] ⟨by simp, by simp, by simp⟩ (by simp) res hl
    rw [List.length_nil, Nat.zero_add] at g5 g6
    have hB : B ≠ [] := by
      intro e
      have := g3.prev_eq
      rw [if_pos e] at this
      simp [this, orErr] at h
    have hprev := g3.prev_eq
    rw [if_neg hB] at hprev
    simp only [hprev, orErr, Except.ok.injEq, Prod.mk.injEq] at h
    obtain ⟨-, rfl⟩ := h
    have hlen : ∀ b ∈ B, b.length = n := fun b hb => (g2 b hb).1
    have hne := flatten_ne hn hlen hB
    refine ⟨B, g2, g5, ?_, ?_, ?_, ?_, ?_, ?_⟩
    · exact (isMean_iff (map_ne_nil hne)).2 rfl
    · intro i
      simp only [g1]
      exact (isMean_iff (map_ne_nil hne)).2 rfl
    · simp [meanForces]
    · intro i f hi
      simp only [meanForces, g1, List.getElem?_map] at hi
      have hlt : i < lattice.positions.length := by
        by_contra hcon
        rw [List.getElem?_eq_none (by rw [List.length_range]; omega)] at hi
        simp at hi
      rw [List.getElem?_range hlt] at hi
      simp only [Option.map_some, Option.some.injEq] at hi
      refine ⟨(B.flatten.map (·.forces)).map fun f => f.getD i ⟨0, 0, 0⟩, ?_, ?_, ?_, ?_⟩
      · rw [List.map_map, List.forall₂_map_right_iff, List.forall₂_same]
        intro x hx
        obtain ⟨b, hb, hxb⟩ := List.mem_flatten.1 hx
        obtain ⟨-, -, -, -, -, -, -, hfl, -⟩ := (g2 b hb).2 x hxb
        simp only [Function.comp_apply, List.getD_eq_getElem?_getD]
        rw [List.getElem?_eq_getElem (by omega)]
        rfl
      · rw [← hi]
        exact (isMean_iff (map_ne_nil (map_ne_nil (map_ne_nil hne)))).2 rfl
      · rw [← hi]
        exact (isMean_iff (map_ne_nil (map_ne_nil (map_ne_nil hne)))).2 rfl
      · rw [← hi]
        exact (isMean_iff (map_ne_nil (map_ne_nil (map_ne_nil hne)))).2 rfl
    · intro k a b hk hk' ha hb
      rw [isMean_eq ha, isMean_eq hb]
      exact g3.going k hk hk'
    · rcases g6 with g6 | ⟨g6, g7⟩
      · exact Or.inl g6
      · refine Or.inr ⟨g6, ?_⟩
        intro a b ha hb
        rw [isMean_eq ha, isMean_eq hb]
        exact g7

/-- **C92.** Properties can always be averaged, if the potential can be evaluated and there is at least one iteration. -/
theorem C92_average_total (eval : Structure K → Except Err Values) (he : ∀ st, ∃ w, eval st = .ok w) (r : Rand) (hr : FairRand r)
    (lattice : Structure K) (occ : List (List (String × ℕ × ℚ))) (hs : Suitable lattice occ)
    (hf : ∀ x ∈ lattice.nAtoms.zip occ, Fills x.1 x.2) (n maxIter : ℕ) (hm : 0 < maxIter) (etol : ℝ) (calls : ℕ) :
    ∃ c v, evalSingle eval r lattice occ n maxIter etol calls = .ok (c, v) := by
  have hev : ∀ c, ∃ c' vs, evalSubs eval r lattice occ n c = .ok (c', vs) := by
    intro c
    obtain ⟨c', g, e, -, -⟩ := generate_spec hr hs hf n c
    have : ∃ ws, (g.mapM fun s => eval s.1) = .ok ws := by
      clear e
      induction g with
      | nil => exact ⟨[], rfl⟩
      | cons a g ih =>
        obtain ⟨w, hw⟩ := he a.1
        obtain ⟨ws, hws⟩ := ih
        exact ⟨w :: ws, by simp [List.mapM_cons, hw, hws, bind, Except.bind, pure, Except.pure]⟩
    obtain ⟨ws, hws⟩ := this
    unfold evalSubs
    simp only [bind, Except.bind, pure, Except.pure, e, hws]
    exact ⟨_, _, rfl⟩
  have hloop : ∀ (left : ℕ) (diff : ℝ) (prev : Option ℝ) (s : ℕ × List Values), (prev.isSome ∨ (0 < left ∧ diff > etol)) →
      ∃ res, loop eval r lattice occ n etol left diff prev s = .ok res ∧ res.1.isSome := by
    intro left
    induction left with
    | zero =>
      intro diff prev s h
      rcases h with h | h
      · exact ⟨_, rfl, h⟩
      · omega
    | succ left ih =>
      intro diff prev s h
      unfold loop
      by_cases hd : diff > etol
      · rw [if_pos hd]
        obtain ⟨c', vs, hv⟩ := hev s.1
        simp only [bind, Except.bind, hv]
        exact ih _ _ _ (Or.inl rfl)
      · rw [if_neg hd]
        rcases h with h | h
        · exact ⟨_, rfl, h⟩
        · exact absurd h.2 hd
  obtain ⟨res, e, hsome⟩ := hloop maxIter (etol + 1) none (calls, []) (Or.inr ⟨hm, by linarith⟩)
  obtain ⟨a, ha⟩ := Option.isSome_iff_exists.1 hsome
  unfold evalSingle
  simp only [bind, Except.bind, pure, Except.pure, e, ha, orErr]
  exact ⟨_, _, rfl⟩

end Verif.Disorder
