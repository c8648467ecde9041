import Verif.Model.Spins
import Verif.Lemmas.Py
import Verif.Lemmas.AtomOrder
import Mathlib.Data.List.Induction
import Mathlib.Algebra.BigOperators.Group.List.Lemmas
import Mathlib.Algebra.BigOperators.Group.Finset.Basic
import Mathlib.Tactic.Linarith

/-!
C49: spin-resolved types of a structure and of the potential.
-/

namespace Verif.AtomOrder
variable {K : Type}

/-- What any sorting routine for indices guarantees: a permutation of the indices that puts the
values in order. -/
def IsArgsort (argsort : List ℕ → List ℕ) : Prop :=
  ∀ xs : List ℕ, (argsort xs).Perm (List.range xs.length) ∧
    ((argsort xs).filterMap (xs[·]?)).Pairwise (· ≤ ·)

/-- The elements of a potential with `m e` types for element `e`. -/
def channels (els : List String) (m : String → ℕ) : List String :=
  els.flatMap fun e => List.replicate (m e) e

/-- The different types that a structure uses for the atoms of an element. -/
def usedTypes (st : Structure K) (e : String) : List ℕ :=
  uniqSorted ((st.elements.zip st.types).filterMap fun p => if p.1 = e then some p.2 else none)

/-! ## Elements in order of first occurrence -/

theorem fromkeys_aux (acc els : List String) (m : String → ℕ) (hm : ∀ e ∈ els, 1 ≤ m e)
    (hnd : (acc ++ els).Nodup) :
    (channels els m).foldl (fun acc e => if e ∈ acc then acc else acc ++ [e]) acc = acc ++ els := by
  induction els generalizing acc with
  | nil => simp [channels]
  | cons e els ih =>
    unfold channels
    rw [List.flatMap_cons, List.foldl_append]
    have hrep : ∀ n, 1 ≤ n → (List.replicate n e).foldl
        (fun acc e => if e ∈ acc then acc else acc ++ [e]) acc = acc ++ [e] := by
      intro n hn
      obtain ⟨k, rfl⟩ : ∃ k, n = k + 1 := ⟨n - 1, by omega⟩
      rw [List.replicate_succ, List.foldl_cons]
      have he : e ∉ acc := by
        intro h
        rw [List.nodup_append] at hnd
        exact hnd.2.2 e h e (by simp) rfl
      rw [if_neg he]
      clear hn
      induction k with
      | zero => rfl
      | succ k ihk =>
        rw [List.replicate_succ, List.foldl_cons, if_pos (by simp)]
        exact ihk
    rw [hrep _ (hm e (by simp))]
    have := ih (acc ++ [e]) (fun x hx => hm x (by simp [hx])) (by simpa using hnd)
    unfold channels at this
    rw [this]; simp

theorem fromkeys_channels (els : List String) (m : String → ℕ) (hm : ∀ e ∈ els, 1 ≤ m e)
    (hnd : els.Nodup) : fromkeys (channels els m) = els := by
  unfold fromkeys
  rw [fromkeys_aux [] els m hm (by simpa using hnd)]; simp

/-- The first type of an element. -/
theorem idxOf_channels (a b : List String) (e : String) (m : String → ℕ) (hm : 1 ≤ m e)
    (he : e ∉ a) : (channels (a ++ e :: b) m).idxOf e = (a.map m).sum := by
  induction a with
  | nil =>
    obtain ⟨k, hk⟩ : ∃ k, m e = k + 1 := ⟨m e - 1, by omega⟩
    simp [channels, hk, List.replicate_succ]
  | cons x a ih =>
    have hx : x ≠ e := fun h => he (by simp [h])
    have := ih (fun h => he (by simp [h]))
    unfold channels at this ⊢
    rw [List.cons_append, List.flatMap_cons, List.idxOf_append_of_notMem, this]
    · simp
    · intro h
      exact hx (List.eq_of_mem_replicate h).symm

/-! ## The selected atoms -/

theorem filterMap_get_length {α : Type} (ids : List ℕ) (xs : List α)
    (h : ∀ i ∈ ids, i < xs.length) : (ids.filterMap (xs[·]?)).length = ids.length := by
  induction ids with
  | nil => rfl
  | cons i ids ih =>
    rw [List.filterMap_cons_some (List.getElem?_eq_getElem (h i (by simp)))]
    simp [ih fun j hj => h j (by simp [hj])]

/-- Atoms of an element, in the order of the structure. -/
def idsOf (st : Structure K) (e : String) : List ℕ :=
  (List.range st.elements.length).filter fun i => st.elements[i]? = some e

theorem idsOf_eq (st : Structure K) (e : String) :
    whereTrue (st.elements.map fun x => decide (x = e)) = idsOf st e := by
  unfold whereTrue idsOf
  rw [List.length_map]
  apply List.filter_congr
  intro i hi
  rw [List.getElem?_map]
  cases st.elements[i]? with
  | none => simp
  | some x => by_cases h : x = e <;> simp [h]

theorem mem_idsOf (st : Structure K) (e : String) (i : ℕ) :
    i ∈ idsOf st e ↔ st.elements[i]? = some e := by
  unfold idsOf
  rw [List.mem_filter, List.mem_range]
  simp only [decide_eq_true_eq]
  exact ⟨fun h => h.2, fun h => ⟨(List.getElem?_eq_some_iff.1 h).1, h⟩⟩

theorem matchIds_perm (argsort : List ℕ → List ℕ) (ha : IsArgsort argsort) (st : Structure K)
    (hlen : st.elements.length = st.types.length) (e : String) :
    (matchIds argsort st e).Perm (idsOf st e) := by
  unfold matchIds
  rw [idsOf_eq]
  have hl : ((idsOf st e).filterMap (st.types[·]?)).length = (idsOf st e).length := by
    apply filterMap_get_length
    intro i hi
    have := (List.getElem?_eq_some_iff.1 ((mem_idsOf st e i).1 hi)).1
    omega
  have h1 := ((ha ((idsOf st e).filterMap (st.types[·]?))).1).filterMap ((idsOf st e)[·]?)
  rw [hl, range_filterMap_get] at h1
  exact h1

theorem mem_matchIds (argsort : List ℕ → List ℕ) (ha : IsArgsort argsort) (st : Structure K)
    (hlen : st.elements.length = st.types.length) (e : String) (i : ℕ) :
    i ∈ matchIds argsort st e ↔ st.elements[i]? = some e := by
  rw [(matchIds_perm argsort ha st hlen e).mem_iff, mem_idsOf]

theorem idsOf_length (st : Structure K) (e : String) :
    (idsOf st e).length = countEle st.elements e := by
  unfold idsOf countEle
  generalize st.elements = es
  induction es using List.reverseRecOn with
  | nil => rfl
  | append_singleton es x ih =>
    rw [List.length_append, List.length_singleton, List.range_succ, List.filter_append,
      List.length_append, List.count_append]
    have h1 : (List.range es.length).filter (fun i => decide ((es ++ [x])[i]? = some e)) =
        (List.range es.length).filter fun i => decide (es[i]? = some e) := by
      apply List.filter_congr
      intro t ht
      rw [List.getElem?_append_left (List.mem_range.1 ht)]
    rw [h1, ih]
    by_cases h : x = e <;> simp [h]

/-! ## Types of one element -/

theorem sorted_ext {xs ys : List ℕ} (h1 : xs.Pairwise (· < ·)) (h2 : ys.Pairwise (· < ·))
    (h : ∀ t, t ∈ xs ↔ t ∈ ys) : xs = ys := by
  have p : xs.Perm ys := (List.perm_ext_iff_of_nodup (h1.imp fun h => Nat.ne_of_lt h)
    (h2.imp fun h => Nat.ne_of_lt h)).2 h
  exact p.eq_of_pairwise (fun a b _ _ h1 h2 => absurd h1 (by omega)) h1 h2

theorem mem_usedTypes (st : Structure K) (e : String) (t : ℕ) :
    t ∈ usedTypes st e ↔ ∃ i : ℕ, st.elements[i]? = some e ∧ st.types[i]? = some t := by
  unfold usedTypes
  rw [mem_uniqSorted, List.mem_filterMap]
  constructor
  · rintro ⟨⟨x, y⟩, hm, h⟩
    dsimp only at h
    split at h
    · rename_i hx
      simp only [Option.some.injEq] at h
      obtain ⟨i, hi⟩ := List.mem_iff_getElem?.1 hm
      rw [List.getElem?_zip_eq_some] at hi
      exact ⟨i, by rw [hi.1]; exact congrArg some hx, by rw [hi.2]; exact congrArg some h⟩
    · simp at h
  · rintro ⟨i, h1, h2⟩
    refine ⟨(e, t), List.mem_of_getElem? (i := i) ?_, by simp⟩
    rw [List.getElem?_zip_eq_some]
    exact ⟨h1, h2⟩

theorem uniqSorted_local (argsort : List ℕ → List ℕ) (ha : IsArgsort argsort) (st : Structure K)
    (hlen : st.elements.length = st.types.length) (e : String) :
    uniqSorted ((matchIds argsort st e).filterMap (st.types[·]?)) = usedTypes st e := by
  refine sorted_ext (ys := usedTypes st e) (uniqSorted_sorted _) (uniqSorted_sorted _) ?_
  intro t
  rw [mem_usedTypes, mem_uniqSorted, List.mem_filterMap]
  constructor
  · rintro ⟨i, hi, h⟩
    exact ⟨i, (mem_matchIds argsort ha st hlen e i).1 hi, h⟩
  · rintro ⟨i, h1, h2⟩
    exact ⟨i, (mem_matchIds argsort ha st hlen e i).2 h1, h2⟩

theorem uniqSorted_map_length (xs : List ℕ) (f : ℕ → ℕ)
    (hf : ∀ a ∈ xs, ∀ b ∈ xs, f a = f b → a = b) :
    (uniqSorted (xs.map f)).length = (uniqSorted xs).length := by
  have h : ∀ l : List ℕ, (uniqSorted l).length = l.toFinset.card := by
    intro l
    rw [(uniqSorted_perm l).length_eq, List.card_toFinset]
  have himg : (xs.map f).toFinset = xs.toFinset.image f := by
    ext t; simp
  rw [h, h, himg]
  apply Finset.card_image_of_injOn
  intro a ha b hb hab
  exact hf a (by simpa using ha) b (by simpa using hb) hab

theorem sum_uniq_count (xs : List ℕ) : ((uniqSorted xs).map fun t => xs.count t).sum = xs.length := by
  rw [((uniqSorted_perm xs).map _).sum_eq]
  exact List.sum_map_count_dedup_eq_length xs

/-! ## The loop -/

/-- The type that atom `i` gets when element `e` starts at type `base e`: the rank of its old type
among the types that the structure uses for its element. -/
def newType (st : Structure K) (base : String → ℕ) (i : ℕ) : Option ℕ :=
  match st.elements[i]?, st.types[i]? with
  | some e, some t => some (base e + (usedTypes st e).idxOf t)
  | _, _ => none

theorem spin_loop (argsort : List ℕ → List ℕ) (ha : IsArgsort argsort) (st : Structure K)
    (force : List (V3 K)) (hlen : st.elements.length = st.types.length) (els : List String)
    (base : String → ℕ)
    (hbase : ∀ a e b, els = a ++ e :: b → base e = (a.map fun x => (usedTypes st x).length).sum) :
    let acc := els.foldl (spinStep argsort st force) {}
    let order := els.flatMap (matchIds argsort st)
    acc.positions = order.filterMap (st.positions[·]?) ∧
    acc.forces = order.filterMap (force[·]?) ∧
    acc.elements = order.filterMap (st.elements[·]?) ∧
    acc.types = order.filterMap (newType st base) ∧
    acc.nAtoms.sum = order.length ∧
    acc.atomtype = (els.map fun x => (usedTypes st x).length).sum := by
  induction els using List.reverseRecOn with
  | nil => exact ⟨rfl, rfl, rfl, rfl, rfl, rfl⟩
  | append_singleton els e ih =>
    obtain ⟨i1, i2, i3, i4, i5, i6⟩ := ih fun a x b h => hbase a x (b ++ [e]) (by rw [h]; simp)
    have hb : base e = (els.map fun x => (usedTypes st x).length).sum := hbase els e [] rfl
    dsimp only at i1 i2 i3 i4 i5 i6 ⊢
    rw [List.foldl_append, List.foldl_cons, List.foldl_nil, List.flatMap_append]
    simp only [List.flatMap_cons, List.flatMap_nil, List.append_nil]
    set acc := els.foldl (spinStep argsort st force) {} with hacc
    have hmem := mem_matchIds argsort ha st hlen e
    have huniq := uniqSorted_local argsort ha st hlen e
    have hlocal : ((matchIds argsort st e).filterMap (st.types[·]?)).map
        (fun t => (usedTypes st e).idxOf t + acc.atomtype) =
        (matchIds argsort st e).filterMap (newType st base) := by
      rw [List.map_filterMap]
      apply List.filterMap_congr
      intro i hi
      have he := (hmem i).1 hi
      unfold newType
      rw [he]
      cases ht : st.types[i]? with
      | none => rfl
      | some t => simp [hb, i6, Nat.add_comm]
    have hlt : ((matchIds argsort st e).filterMap (st.types[·]?)).length =
        (matchIds argsort st e).length := by
      apply filterMap_get_length
      intro i hi
      have := (List.getElem?_eq_some_iff.1 ((hmem i).1 hi)).1
      omega
    refine ⟨?_, ?_, ?_, ?_, ?_, ?_⟩
    · simp only [spinStep]; rw [List.filterMap_append, i1]
    · simp only [spinStep]; rw [List.filterMap_append, i2]
    · simp only [spinStep]
      rw [List.filterMap_append, i3]
      congr 1
      rw [← idsOf_length, ← (matchIds_perm argsort ha st hlen e).length_eq]
      symm
      rw [List.eq_replicate_iff]
      constructor
      · apply filterMap_get_length
        intro i hi
        exact (List.getElem?_eq_some_iff.1 ((hmem i).1 hi)).1
      · intro x hx
        obtain ⟨i, hi, h⟩ := List.mem_filterMap.1 hx
        rw [(hmem i).1 hi] at h
        exact (Option.some.inj h).symm
    · simp only [spinStep]
      rw [List.filterMap_append, i4, huniq, hlocal]
    · simp only [spinStep]
      rw [List.sum_append, i5, sum_uniq_count, List.length_map, hlt, List.length_append]
    · simp only [spinStep]
      rw [i6, uniqSorted_map_length, huniq, List.map_append, List.sum_append]
      · simp
      · intro a ha' b hb' hab
        have h1 : a ∈ uniqSorted ((matchIds argsort st e).filterMap (st.types[·]?)) :=
          mem_uniqSorted.2 ha'
        have := Nat.add_right_cancel hab
        exact (List.idxOf_inj h1).1 this

theorem order_perm (argsort : List ℕ → List ℕ) (ha : IsArgsort argsort) (st : Structure K)
    (hlen : st.elements.length = st.types.length) (els : List String) (hnd : els.Nodup)
    (hall : ∀ e ∈ st.elements, e ∈ els) :
    (els.flatMap (matchIds argsort st)).Perm (List.range st.elements.length) := by
  rw [List.perm_ext_iff_of_nodup ?_ List.nodup_range]
  · intro i
    rw [List.mem_flatMap, List.mem_range]
    constructor
    · rintro ⟨e, _, hi⟩
      exact (List.getElem?_eq_some_iff.1 ((mem_matchIds argsort ha st hlen e i).1 hi)).1
    · intro hi
      exact ⟨st.elements[i], hall _ (List.getElem_mem hi),
        (mem_matchIds argsort ha st hlen _ i).2 (List.getElem?_eq_getElem hi)⟩
  · rw [List.nodup_flatMap]
    constructor
    · intro e _
      rw [(matchIds_perm argsort ha st hlen e).nodup_iff]
      exact List.nodup_range.filter _
    · apply hnd.imp
      intro a b hab i h1 h2
      have e1 := (mem_matchIds argsort ha st hlen a i).1 h1
      have e2 := (mem_matchIds argsort ha st hlen b i).1 h2
      rw [e1] at e2
      exact hab (Option.some.inj e2)

/-- C49, partial: if every element of the structure uses as many types as the potential has for
it, the atoms are put in the order of the potential's elements, positions and forces move
together, and each atom gets the potential's type for its element and channel: the first type of
its element plus the rank of its old type.  The order of atoms of equal type is not specified
(any sort).  Missing: structures in which a spin channel is empty, see `C49_empty_channel`. -/
theorem C49_spin_types_partial [CommRing K] (argsort : List ℕ → List ℕ) (ha : IsArgsort argsort)
    (st : Structure K) (hwf : st.WF) (force : List (V3 K)) (hf : force.length = st.elements.length)
    (els : List String) (m : String → ℕ) (hnd : els.Nodup) (hm : ∀ e ∈ els, 1 ≤ m e)
    (hall : ∀ e ∈ st.elements, e ∈ els)
    (hocc : ∀ e ∈ els, (usedTypes st e).length = m e) :
    ∃ (order : List ℕ) (st' : Structure K) (force' : List (V3 K)),
      permuteSpins argsort st (channels els m) force = .ok (st', force') ∧
      order.Perm (List.range st.elements.length) ∧
      st'.positions = order.filterMap (st.positions[·]?) ∧
      force' = order.filterMap (force[·]?) ∧
      st'.elements = order.filterMap (st.elements[·]?) ∧
      st'.types = order.filterMap (newType st fun e => (channels els m).idxOf e) ∧
      st'.types.length = st.types.length ∧ st'.axis = st.axis := by
  obtain ⟨w1, w2, w3⟩ := hwf
  have hbase : ∀ a e b, els = a ++ e :: b →
      (channels els m).idxOf e = (a.map fun x => (usedTypes st x).length).sum := by
    intro a e b h
    rw [h, idxOf_channels a b e m (hm e (by rw [h]; simp))]
    · congr 1
      apply List.map_congr_left
      intro x hx
      exact (hocc x (by rw [h]; simp [hx])).symm
    · intro he
      rw [h, List.nodup_append] at hnd
      exact hnd.2.2 e he e (by simp) rfl
  obtain ⟨i1, i2, i3, i4, i5, i6⟩ := spin_loop argsort ha st force w2 els _ hbase
  have hp := order_perm argsort ha st w2 els hnd hall
  set order := els.flatMap (matchIds argsort st) with horder
  set acc := els.foldl (spinStep argsort st force) {} with hacc
  have hol : order.length = st.elements.length := by rw [hp.length_eq, List.length_range]
  have hmemo : ∀ i ∈ order, i < st.elements.length := fun i hi => List.mem_range.1 (hp.subset hi)
  have l1 : acc.positions.length = st.positions.length := by
    rw [i1, filterMap_get_length _ _ (fun i hi => by rw [w1]; exact hmemo i hi), hol, w1]
  have l2 : acc.forces.length = force.length := by
    rw [i2, filterMap_get_length _ _ (fun i hi => by rw [hf]; exact hmemo i hi), hol, hf]
  have l3 : acc.elements.length = st.elements.length := by
    rw [i3, filterMap_get_length _ _ hmemo, hol]
  have l4 : acc.types.length = st.types.length := by
    rw [i4, ← w2, ← hol]
    have : ∀ l : List ℕ, (∀ i ∈ l, i < st.elements.length) →
        (l.filterMap (newType st fun e => (channels els m).idxOf e)).length = l.length := by
      intro l hl
      induction l with
      | nil => rfl
      | cons i l ih =>
        have hi := hl i (by simp)
        have : newType st (fun e => (channels els m).idxOf e) i =
            some ((channels els m).idxOf st.elements[i] +
              (usedTypes st st.elements[i]).idxOf (st.types[i]'(by omega))) := by
          unfold newType
          rw [List.getElem?_eq_getElem hi, List.getElem?_eq_getElem (by omega)]
        rw [List.filterMap_cons_some this, List.length_cons, List.length_cons,
          ih fun j hj => hl j (by simp [hj])]
    exact this order hmemo
  refine ⟨order, ⟨st.axis, acc.positions, acc.nAtoms, acc.elements, acc.types, st.axis.det, none⟩,
    acc.forces, ?_, hp, i1, i2, i3, i4, l4, rfl⟩
  unfold permuteSpins
  rw [fromkeys_channels els m hm hnd, ← hacc]
  dsimp only
  rw [fillTo_full _ _ _ l1, fillTo_full _ _ _ l4, fillTo_full _ _ _ l2]
  unfold Structure.mk' Structure.check
  rw [if_pos]
  · rfl
  · dsimp only
    refine ⟨by rw [l1, l3, w1], by rw [l3, l4, w2], by rw [l3, i5, hol]⟩

/-- A stable sort of indices. -/
def insertionArgsort (xs : List ℕ) : List ℕ :=
  (List.range xs.length).insertionSort fun i j => (xs[i]?.getD 0) ≤ (xs[j]?.getD 0)

/-- C49 fails when a spin channel is empty: in iron oxide with only spin-up iron, the oxygen atom
gets type 1, which is the potential's spin-down iron, instead of type 2. -/
theorem C49_empty_channel :
    let z : V3 ℤ := ⟨0, 0, 0⟩
    let st : Structure ℤ := ⟨⟨⟨1, 0, 0⟩, ⟨0, 1, 0⟩, ⟨0, 0, 1⟩⟩, [z, z], [1, 0, 1], ["Fe", "O"],
      [0, 2], 1, none⟩
    (permuteSpins insertionArgsort st ["Fe", "Fe", "O"] [z, z]).map (fun r => r.1.types) =
      .ok [0, 1] ∧ (["Fe", "Fe", "O"] : List String)[1]? = some "Fe" := by
  decide +kernel

theorem insertionArgsort_isArgsort : IsArgsort insertionArgsort := by
  intro xs
  have htot : Std.Total (fun i j : ℕ => (xs[i]?.getD 0) ≤ (xs[j]?.getD 0)) :=
    ⟨fun a b => Nat.le_total _ _⟩
  have htr : IsTrans ℕ (fun i j : ℕ => (xs[i]?.getD 0) ≤ (xs[j]?.getD 0)) :=
    ⟨fun a b c h1 h2 => Nat.le_trans h1 h2⟩
  have hp := List.perm_insertionSort
    (fun i j : ℕ => (xs[i]?.getD 0) ≤ (xs[j]?.getD 0)) (List.range xs.length)
  refine ⟨hp, ?_⟩
  have hs : (insertionArgsort xs).Pairwise (fun i j => (xs[i]?.getD 0) ≤ (xs[j]?.getD 0)) :=
    List.pairwise_insertionSort _ _
  rw [List.pairwise_filterMap]
  apply hs.imp
  intro a b hab x hx y hy
  rw [hx, hy] at hab
  simpa using hab

/-- The hypotheses are met: two Fe channels and one O type, atoms in mixed order. -/
example :
    let v (n : ℤ) : V3 ℤ := ⟨n, 0, 0⟩
    let st : Structure ℤ := ⟨⟨⟨1, 0, 0⟩, ⟨0, 1, 0⟩, ⟨0, 0, 1⟩⟩, [v 1, v 2, v 3], [1, 1, 1],
      ["O", "Fe", "Fe"], [0, 2, 1], 1, none⟩
    st.WF ∧ (∀ e ∈ ["Fe", "O"], (usedTypes st e).length = if e = "Fe" then 2 else 1) ∧
    (permuteSpins insertionArgsort st ["Fe", "Fe", "O"] [v 10, v 20, v 30]).map
      (fun r => (r.1.types, r.1.positions, r.2)) =
      .ok ([0, 1, 2], [v 3, v 2, v 1], [v 30, v 20, v 10]) := by
  refine ⟨by decide +kernel, by decide +kernel, by decide +kernel⟩

end Verif.AtomOrder
