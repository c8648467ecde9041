import Verif.Model.Hybrid
import Verif.Lemmas.Params
import Verif.Lemmas.Py
import Verif.Props.Params

/-!
C38: parameters of hybrid potentials.
-/

namespace Verif.Params
variable {K V : Type}

/-! ## The longest list -/

/-- One step of `maxLength`. -/
def longer {α : Type} (array : List α) (target : Option (List α)) : List α :=
  match target with
  | none => array
  | some t => if array.length < t.length then t else array

theorem maxLength_snoc {α : Type} (xs : List (Option (List α))) (x : Option (List α)) :
    maxLength (xs ++ [x]) = longer (maxLength xs) x := by
  unfold maxLength; rw [List.foldl_append]; rfl

theorem maxLength_ge {α : Type} (xs : List (Option (List α))) (t : List α) (h : some t ∈ xs) :
    t.length ≤ (maxLength xs).length := by
  induction xs using List.reverseRecOn with
  | nil => simp at h
  | append_singleton xs x ih =>
    rw [maxLength_snoc]
    unfold longer
    rcases List.mem_append.1 h with h | h
    · have := ih h
      cases x with
      | none => exact this
      | some u => dsimp only; split <;> omega
    · simp only [List.mem_singleton] at h
      subst h
      dsimp only
      split <;> omega

theorem maxLength_mem {α : Type} (xs : List (Option (List α))) :
    maxLength xs = [] ∨ some (maxLength xs) ∈ xs := by
  induction xs using List.reverseRecOn with
  | nil => left; rfl
  | append_singleton xs x ih =>
    rw [maxLength_snoc]
    unfold longer
    cases x with
    | none =>
      dsimp only
      rcases ih with h | h
      · exact .inl h
      · exact .inr (List.mem_append.2 (.inl h))
    | some u =>
      dsimp only
      split
      · exact .inr (by simp)
      · rcases ih with h | h
        · exact .inl h
        · exact .inr (List.mem_append.2 (.inl h))

/-- Two lists of the same lengths: their longest entries are taken at the same place. -/
theorem maxLength_together {α β γ : Type} (ps : List γ) (f : γ → List α) (g : γ → List β)
    (hlen : ∀ p ∈ ps, (f p).length = (g p).length) :
    (maxLength (ps.map fun p => some (f p)) = [] ∧ maxLength (ps.map fun p => some (g p)) = []) ∨
    ∃ p ∈ ps, maxLength (ps.map fun p => some (f p)) = f p ∧
      maxLength (ps.map fun p => some (g p)) = g p := by
  induction ps using List.reverseRecOn with
  | nil => left; exact ⟨rfl, rfl⟩
  | append_singleton ps x ih =>
    rw [List.map_append, List.map_append]
    simp only [List.map_cons, List.map_nil]
    rw [maxLength_snoc, maxLength_snoc]
    unfold longer
    dsimp only
    have hx := hlen x (by simp)
    have ih' := ih fun p hp => hlen p (by simp [hp])
    have hl : (maxLength (ps.map fun p => some (f p))).length =
        (maxLength (ps.map fun p => some (g p))).length := by
      rcases ih' with ⟨h1, h2⟩ | ⟨p, hp, h1, h2⟩
      · rw [h1, h2]; rfl
      · rw [h1, h2]; exact hlen p (by simp [hp])
    by_cases hc : (maxLength (ps.map fun p => some (f p))).length < (f x).length
    · rw [if_pos hc, if_pos (by rw [← hl, ← hx]; exact hc)]
      exact .inr ⟨x, by simp, rfl, rfl⟩
    · rw [if_neg hc, if_neg (by rw [← hl, ← hx]; exact hc)]
      rcases ih' with h | ⟨p, hp, h⟩
      · exact .inl h
      · exact .inr ⟨p, by simp [hp], h⟩

theorem foldl_max_eq (ns : List ℕ) (m : ℕ) (hub : ∀ n ∈ ns, n ≤ m)
    (hmem : m ∈ ns ∨ m = 0) : ns.foldl max 0 = m := by
  have gen : ∀ (l : List ℕ) (a : ℕ), a ≤ m → (∀ n ∈ l, n ≤ m) → (m ∈ l ∨ m = a) →
      l.foldl max a = m := by
    intro l
    induction l with
    | nil => intro a ha _ h; simpa [eq_comm] using h
    | cons x l ih =>
      intro a ha hl h
      rw [List.foldl_cons]
      have hx := hl x (by simp)
      apply ih
      · exact max_le ha hx
      · exact fun n hn => hl n (by simp [hn])
      · rcases h with h | h
        · rcases List.mem_cons.1 h with h | h
          · right; subst h; exact (max_eq_right ha).symm
          · exact .inl h
        · right; subst h; exact (max_eq_left hx).symm
  exact gen ns 0 (Nat.zero_le _) hub hmem

theorem setCommon_nType (ps : List (Sub K V)) (hlen : ∀ p ∈ ps, p.elements.length = p.nType) :
    (setCommon ps).nType = (setCommon ps).elements.length := by
  unfold setCommon
  dsimp only
  apply foldl_max_eq
  · intro n hn
    obtain ⟨p, hp, rfl⟩ := List.mem_map.1 hn
    rw [← hlen p hp]
    exact maxLength_ge _ _ (List.mem_map.2 ⟨p, hp, rfl⟩)
  · rcases maxLength_mem (ps.map fun p => some p.elements) with h | h
    · right; rw [h]; rfl
    · left
      obtain ⟨p, hp, e⟩ := List.mem_map.1 h
      simp only [Option.some.injEq] at e
      rw [← e, hlen p hp]
      exact List.mem_map.2 ⟨p, hp, rfl⟩

/-! ## Sorting by the common list -/

/-- `own` sorted by position in `elements`. -/
abbrev byIndex (elements own : List String) : List String :=
  own.insertionSort fun a b => elements.idxOf a ≤ elements.idxOf b

theorem sorted_idx (elements own : List String) (hown : own.Nodup)
    (hsub : ∀ e ∈ own, e ∈ elements) :
    ((own.insertionSort fun a b => elements.idxOf a ≤ elements.idxOf b).map
      (elements.idxOf ·)).Pairwise (· < ·) := by
  have htot : Std.Total (fun a b : String => elements.idxOf a ≤ elements.idxOf b) :=
    ⟨fun a b => Nat.le_total _ _⟩
  have htr : IsTrans String (fun a b : String => elements.idxOf a ≤ elements.idxOf b) :=
    ⟨fun a b c h1 h2 => Nat.le_trans h1 h2⟩
  have h1 : (own.insertionSort fun a b => elements.idxOf a ≤ elements.idxOf b).Pairwise
      (fun a b => elements.idxOf a ≤ elements.idxOf b) := List.pairwise_insertionSort _ _
  have hp := List.perm_insertionSort (fun a b : String => elements.idxOf a ≤ elements.idxOf b) own
  have h2 := hp.nodup_iff.2 hown
  rw [List.pairwise_map]
  have h3 := h1.and h2
  apply List.Pairwise.imp_of_mem ?_ h3
  intro a b ha hb hab
  have ha' := hsub a (hp.subset ha)
  exact lt_of_le_of_ne hab.1 fun e => hab.2 ((List.idxOf_inj ha').1 e)

theorem strictly_increasing_full (xs : List ℕ) (n : ℕ) (h1 : xs.Pairwise (· < ·))
    (h2 : ∀ x ∈ xs, x < n) (h3 : xs.length = n) : xs = List.range n := by
  have hperm : xs.Perm (List.range n) := by
    have hnd : xs.Nodup := h1.imp (fun h => Nat.ne_of_lt h)
    apply (List.subperm_of_subset hnd (fun x hx => List.mem_range.2 (h2 x hx))).perm_of_length_le
    rw [List.length_range, h3]
  exact hperm.eq_of_pairwise (fun a b _ _ h1 h2 => absurd h1 (by omega)) h1 List.pairwise_lt_range

/-! ## C38 -/

/-- What a user expects of a sub-model after the combination: the same elements, now in the
order of the common list, and type indices that say where they are. -/
def Placed (common : Common K) (p q : Sub K V) : Prop :=
  q.elements.Perm p.elements ∧ q.nType = p.nType ∧
  q.typeIndices.Pairwise (· < ·) ∧
  q.typeIndices.map (common.elements[·]?) = q.elements.map some ∧
  (q.typeFull = some true ↔ p.nType = common.nType)

theorem setUniqueTypes_ok {common : Common K} {ps qs : List (Sub K V)}
    (h : setUniqueTypes common ps = .ok qs) :
    List.Forall₂ (fun p q => (∀ e ∈ p.elements, e ∈ common.elements) ∧
      q = setTypeIndices common { p with elements := byIndex common.elements p.elements })
      ps qs := by
  unfold setUniqueTypes at h
  induction ps generalizing qs with
  | nil =>
    simp only [List.mapM_nil, bind, Except.bind, pure, Except.pure, List.map_nil,
      Except.ok.injEq] at h
    subst h; exact .nil
  | cons p ps ih =>
    rw [List.mapM_cons] at h
    unfold sortElements at h
    by_cases hc : (p.elements.all fun e => decide (e ∈ common.elements)) = true
    · rw [if_pos hc] at h
      simp only [Except.map, bind, Except.bind, pure, Except.pure] at h
      cases hr : List.mapM (fun p : Sub K V =>
          (sortElements common.elements p.elements).map fun es =>
            ({ p with elements := es } : Sub K V)) ps with
      | error e =>
        unfold sortElements at hr
        simp only [Except.map] at hr
        rw [hr] at h; simp at h
      | ok rs =>
        have ih' := @ih (rs.map (setTypeIndices common)) (by rw [hr]; rfl)
        unfold sortElements at hr
        simp only [Except.map] at hr
        rw [hr] at h
        simp only [List.map_cons, Except.ok.injEq] at h
        subst h
        refine .cons ⟨?_, rfl⟩ ih'
        intro e he
        rw [List.all_eq_true] at hc
        simpa using hc e he
    · rw [if_neg hc] at h
      simp [Except.map, bind, Except.bind] at h

/-- The hypotheses that the constructor of the sub-models enforces, for elements without spin
channels. -/
def SubsWF (ps : List (Sub K V)) : Prop :=
  ∀ p ∈ ps, p.elements.length = p.nType ∧ p.elements.Nodup

/-- C38: if sub-models (without spin channels) can be combined, the common list of elements is
that of a sub-model with the most types, without repetitions; it contains the elements of every
sub-model; and the type indices of each sub-model are increasing and point to its own elements. -/
theorem C38_hybrid (ps : List (Sub K V)) (hwf : SubsWF ps) (common : Common K)
    (qs : List (Sub K V)) (h : initHybrid ps = .ok (common, qs)) :
    common.nType = common.elements.length ∧ common.elements.Nodup ∧
    (∀ p ∈ ps, p.nType ≤ common.nType ∧ ∀ e ∈ p.elements, e ∈ common.elements) ∧
    List.Forall₂ (Placed common) ps qs := by
  have hc : common = setCommon ps ∧ setUniqueTypes common ps = .ok qs := by
    unfold initHybrid at h
    dsimp only at h
    cases hch : checkSpins ps (setCommon ps) with
    | error e => rw [hch] at h; simp [bind, Except.bind] at h
    | ok u =>
      rw [hch] at h
      simp only [bind, Except.bind] at h
      cases hu : setUniqueTypes (setCommon ps) ps with
      | error e => rw [hu] at h; simp at h
      | ok rs =>
        rw [hu] at h
        simp only [pure, Except.pure, Except.ok.injEq, Prod.mk.injEq] at h
        obtain ⟨rfl, rfl⟩ := h
        exact ⟨rfl, hu⟩
  obtain ⟨hcom, hu⟩ := hc
  have hrel := setUniqueTypes_ok hu
  have hn : common.nType = common.elements.length := by
    rw [hcom]; exact setCommon_nType ps fun p hp => (hwf p hp).1
  have hnd : common.elements.Nodup := by
    rw [hcom]
    unfold setCommon
    dsimp only
    rcases maxLength_mem (ps.map fun p => some p.elements) with h | h
    · rw [h]; exact List.nodup_nil
    · obtain ⟨p, hp, e⟩ := List.mem_map.1 h
      simp only [Option.some.injEq] at e
      rw [← e]; exact (hwf p hp).2
  have hle : ∀ p ∈ ps, p.nType ≤ common.nType := by
    intro p hp
    rw [hn, ← (hwf p hp).1, hcom]
    exact maxLength_ge _ _ (List.mem_map.2 ⟨p, hp, rfl⟩)
  refine ⟨hn, hnd, ?_, ?_⟩
  · intro p hp
    refine ⟨hle p hp, ?_⟩
    clear hwf hcom hu hle h
    induction hrel with
    | nil => simp at hp
    | cons h1 _ ih =>
      rcases List.mem_cons.1 hp with rfl | hp
      · exact h1.1
      · exact ih hp
  · clear hcom hu h hle
    induction hrel with
    | nil => exact .nil
    | @cons p q ps' qs' h1 _ ih =>
      refine .cons ?_ (ih fun p hp => hwf p (by simp [hp]))
      obtain ⟨hsub, rfl⟩ := h1
      obtain ⟨hl, hown⟩ := hwf p (by simp)
      have hperm := List.perm_insertionSort
        (fun a b : String => common.elements.idxOf a ≤ common.elements.idxOf b) p.elements
      have hidx := sorted_idx common.elements p.elements hown hsub
      have hback : ((p.elements.insertionSort fun a b =>
          common.elements.idxOf a ≤ common.elements.idxOf b).map
          (common.elements.idxOf ·)).map (common.elements[·]?) =
          (p.elements.insertionSort fun a b =>
          common.elements.idxOf a ≤ common.elements.idxOf b).map some := by
        rw [List.map_map]
        apply List.map_congr_left
        intro e he
        exact List.getElem?_idxOf (hsub e (hperm.subset he))
      unfold Placed setTypeIndices
      dsimp only
      by_cases hnt : p.nType = common.nType
      · rw [if_pos hnt]
        refine ⟨hperm, rfl, List.pairwise_lt_range, ?_, by simp [hnt]⟩
        dsimp only
        rw [← strictly_increasing_full _ common.nType hidx ?_ ?_]
        · exact hback
        · intro x hx
          obtain ⟨e, he, rfl⟩ := List.mem_map.1 hx
          rw [hn]
          exact List.idxOf_lt_length_of_mem (hsub e (hperm.subset he))
        · rw [List.length_map, hperm.length_eq, hl, hnt]
      · rw [if_neg hnt]
        exact ⟨hperm, rfl, hidx, hback, by simp [hnt]⟩

/-- C38: the atomic energies of the common parameters belong to the elements of the common
list: both come from the same sub-model. -/
theorem C38_energies (ps : List (Sub K V)) (hne : ps ≠ [])
    (energy : Sub K V → List K) (hlen : ∀ p ∈ ps, p.elements.length = p.nType)
    (he : ∀ p ∈ ps, p.atomicEnergy = some (energy p) ∧ (energy p).length = p.nType) :
    ∃ p ∈ ps, (setCommon ps).elements = p.elements ∧ (setCommon ps).atomicEnergy = energy p := by
  have heq : ps.map (fun p => p.atomicEnergy) = ps.map fun p => some (energy p) :=
    List.map_congr_left fun p hp => (he p hp).1
  unfold setCommon
  dsimp only
  rw [heq]
  rcases maxLength_together ps (fun p => p.elements) energy
    (fun p hp => by rw [hlen p hp, (he p hp).2]) with ⟨h1, h2⟩ | ⟨p, hp, h1, h2⟩
  · obtain ⟨p, hp⟩ := List.exists_mem_of_ne_nil ps hne
    have := maxLength_ge (ps.map fun p => some p.elements) p.elements
      (List.mem_map.2 ⟨p, hp, rfl⟩)
    rw [h1] at this
    simp only [List.length_nil, Nat.le_zero_eq] at this
    refine ⟨p, hp, ?_, ?_⟩
    · rw [h1]; exact (List.length_eq_zero_iff.1 this).symm
    · rw [h2]
      have h3 := (he p hp).2
      rw [← hlen p hp, this] at h3
      exact (List.length_eq_zero_iff.1 h3).symm
  · exact ⟨p, hp, h1, h2⟩

/-- C38: sub-models without spins can be combined exactly when the longest list of elements
contains all elements; otherwise `ValueError` is raised. -/
theorem C38_possible (ps : List (Sub K V)) (hspin : ∀ p ∈ ps, noSpins p = true) :
    ((∃ r, initHybrid ps = .ok r) ↔
      ∀ p ∈ ps, ∀ e ∈ p.elements, e ∈ (setCommon ps).elements) ∧
    ((∃ p ∈ ps, ∃ e ∈ p.elements, e ∉ (setCommon ps).elements) →
      initHybrid ps = .error .valueError) := by
  have hchk : checkSpins ps (setCommon ps) = .ok () := by
    unfold checkSpins
    dsimp only
    rw [if_pos]
    rw [List.filter_eq_self.2 hspin]
  have hred : initHybrid ps = (setUniqueTypes (setCommon ps) ps).map
      fun qs => (setCommon ps, qs) := by
    unfold initHybrid
    dsimp only
    rw [hchk]
    simp only [bind, Except.bind]
    cases setUniqueTypes (setCommon ps) ps <;> rfl
  have hu : ∀ (common : Common K) (l : List (Sub K V)),
      ((∀ p ∈ l, ∀ e ∈ p.elements, e ∈ common.elements) →
        ∃ qs, setUniqueTypes common l = .ok qs) ∧
      ((∃ p ∈ l, ∃ e ∈ p.elements, e ∉ common.elements) →
        setUniqueTypes common l = .error .valueError) := by
    intro common l
    unfold setUniqueTypes
    induction l with
    | nil => exact ⟨fun _ => ⟨[], rfl⟩, by simp⟩
    | cons p l ih =>
      rw [List.mapM_cons]
      by_cases hc : ∀ e ∈ p.elements, e ∈ common.elements
      · have hs : sortElements common.elements p.elements = .ok (p.elements.insertionSort
            fun a b => common.elements.idxOf a ≤ common.elements.idxOf b) := by
          unfold sortElements
          rw [if_pos (by rw [List.all_eq_true]; intro e he; simpa using hc e he)]
        rw [hs]
        constructor
        · intro hall
          obtain ⟨qs, hqs⟩ := ih.1 fun q hq => hall q (by simp [hq])
          cases hm : List.mapM (fun p : Sub K V =>
              (sortElements common.elements p.elements).map fun es =>
                ({ p with elements := es } : Sub K V)) l with
          | error e => rw [hm] at hqs; simp [bind, Except.bind] at hqs
          | ok rs => exact ⟨_, rfl⟩
        · rintro ⟨q, hq, e, he, hne⟩
          rcases List.mem_cons.1 hq with rfl | hq
          · exact absurd (hc e he) hne
          · have h2 := ih.2 ⟨q, hq, e, he, hne⟩
            cases hm : List.mapM (fun p : Sub K V =>
                (sortElements common.elements p.elements).map fun es =>
                  ({ p with elements := es } : Sub K V)) l with
            | error e => rw [hm] at h2; exact h2
            | ok rs => rw [hm] at h2; simp [bind, Except.bind, pure, Except.pure] at h2
      · have hs : sortElements common.elements p.elements = .error .valueError := by
          unfold sortElements
          rw [if_neg]
          intro h
          rw [List.all_eq_true] at h
          exact hc fun e he => by simpa using h e he
        rw [hs]
        constructor
        · intro hall; exact absurd (hall p (by simp)) hc
        · intro _; rfl
  rw [hred]
  obtain ⟨hu1, hu2⟩ := hu (setCommon ps) ps
  refine ⟨⟨?_, ?_⟩, ?_⟩
  · rintro ⟨r, hr⟩
    intro p hp e he
    by_contra hne
    rw [hu2 ⟨p, hp, e, he, hne⟩] at hr
    simp [Except.map] at hr
  · intro hall
    obtain ⟨qs, hqs⟩ := hu1 hall
    rw [hqs]; exact ⟨_, rfl⟩
  · intro hbad
    rw [hu2 hbad]; rfl

/-- Two sub-models that share one element but have another one each cannot be combined. -/
theorem C38_union_not_supported :
    initHybrid [(⟨⟨2, ["A", "B"], some [0, 0], none, []⟩, none, []⟩ : Sub ℤ ℕ),
      ⟨⟨2, ["A", "C"], some [0, 0], none, []⟩, none, []⟩] = .error .valueError := by
  decide +kernel

example : SubsWF [(⟨⟨3, ["C", "A", "B"], some [3, 1, 2], none, []⟩, none, []⟩ : Sub ℤ ℕ),
      ⟨⟨2, ["B", "C"], some [2, 3], none, []⟩, none, []⟩] ∧
    initHybrid [(⟨⟨3, ["C", "A", "B"], some [3, 1, 2], none, []⟩, none, []⟩ : Sub ℤ ℕ),
      ⟨⟨2, ["B", "C"], some [2, 3], none, []⟩, none, []⟩] =
      .ok (⟨3, ["C", "A", "B"], [3, 1, 2], none⟩,
        [⟨⟨3, ["C", "A", "B"], some [3, 1, 2], none, []⟩, some true, [0, 1, 2]⟩,
         ⟨⟨2, ["C", "B"], some [2, 3], none, []⟩, some false, [0, 2]⟩]) := by
  constructor
  · intro p hp
    rcases List.mem_cons.1 hp with rfl | hp
    · decide +kernel
    · rcases List.mem_cons.1 hp with rfl | hp
      · decide +kernel
      · simp at hp
  · decide +kernel

/-! ### What goes wrong -/

/-- The pair parameters of a sub-model for two elements (in the order of its types). -/
def pairOf (p : Sub K V) (a b : String) : Option V :=
  p.pairs.get? (sortedPair (p.elements.idxOf a) (p.elements.idxOf b))

/-- C38 fails for pair parameters: when the elements of a sub-model are put in the common order,
its pair parameters stay where they are, so that they now belong to other elements. -/
theorem C38_pair_params_misplaced :
    ∃ (ps : List (Sub ℤ ℕ)) (common : Common ℤ) (p q : Sub ℤ ℕ) (qs : List (Sub ℤ ℕ)),
      SubsWF ps ∧ initHybrid ps = .ok (common, qs) ∧ ps[1]? = some p ∧ qs[1]? = some q ∧
      pairOf p "A" "A" = some 30 ∧ pairOf q "A" "A" = some 10 := by
  refine ⟨[⟨⟨2, ["A", "B"], some [0, 0], none, []⟩, none, []⟩,
    ⟨⟨2, ["B", "A"], some [0, 0], none, [((0, 0), 10), ((0, 1), 20), ((1, 1), 30)]⟩, none, []⟩],
    ⟨2, ["A", "B"], [0, 0], none⟩, _,
    ⟨⟨2, ["A", "B"], some [0, 0], none, [((0, 0), 10), ((0, 1), 20), ((1, 1), 30)]⟩,
      some true, [0, 1]⟩, _, ?_, rfl, rfl, ?_, ?_, ?_⟩
  · intro p hp
    rcases List.mem_cons.1 hp with rfl | hp
    · decide +kernel
    · rcases List.mem_cons.1 hp with rfl | hp
      · decide +kernel
      · simp at hp
  · decide +kernel
  · decide +kernel
  · decide +kernel

/-- C38 fails for spin channels: both channels of an element get the type index of the first. -/
theorem C38_spin_indices_repeated :
    ∃ (ps : List (Sub ℤ ℕ)) (common : Common ℤ) (q : Sub ℤ ℕ) (qs : List (Sub ℤ ℕ)),
      initHybrid ps = .ok (common, qs) ∧ qs[1]? = some q ∧
      common.elements = ["Fe", "Fe", "O"] ∧ q.elements = ["Fe", "Fe"] ∧
      q.typeIndices = [0, 0] := by
  refine ⟨[⟨⟨3, ["Fe", "Fe", "O"], some [0, 0, 0], some [true, true, false], []⟩, none, []⟩,
    ⟨⟨2, ["Fe", "Fe"], some [0, 0], some [true, true], []⟩, none, []⟩],
    ⟨3, ["Fe", "Fe", "O"], [0, 0, 0], some [true, true, false]⟩,
    ⟨⟨2, ["Fe", "Fe"], some [0, 0], some [true, true], []⟩, some false, [0, 0]⟩, _, rfl, ?_, ?_,
    ?_, ?_⟩ <;> decide +kernel

/-! ### The check on spins -/

/-- C38: if every sub-model has some spin channel, the check on spins passes exactly when every
element has the same flag in all sub-models and no element is missing in the common list. -/
theorem C38_spin_check (ps : List (Sub K V)) (hne : ps ≠ [])
    (hspin : ∀ p ∈ ps, noSpins p = false)
    (hlen : ∀ p ∈ ps, ∃ s, p.enableSpins = some s ∧ s.length = p.elements.length) :
    checkSpins ps (setCommon ps) = .ok () ↔
      (∀ e f g, (e, f) ∈ spinCombs ps → (e, g) ∈ spinCombs ps → f = g) ∧
      ∀ p ∈ ps, ∀ e ∈ p.elements, e ∈ (setCommon ps).elements := by
  have hmem : ∀ e, (∃ f, (e, f) ∈ spinCombs ps) ↔ ∃ p ∈ ps, e ∈ p.elements := by
    intro e
    unfold spinCombs
    constructor
    · rintro ⟨f, hf⟩
      obtain ⟨p, hp, hz⟩ := List.mem_flatMap.1 hf
      exact ⟨p, hp, (List.of_mem_zip hz).1⟩
    · rintro ⟨p, hp, he⟩
      obtain ⟨s, hs, hl⟩ := hlen p hp
      obtain ⟨i, hi⟩ := List.mem_iff_getElem?.1 he
      have hil := (List.getElem?_eq_some_iff.1 hi).1
      refine ⟨s[i]'(by omega), List.mem_flatMap.2 ⟨p, hp, ?_⟩⟩
      rw [hs, Option.getD_some]
      apply List.mem_of_getElem? (i := i)
      rw [List.getElem?_zip_eq_some]
      exact ⟨hi, List.getElem?_eq_getElem _⟩
  have hcommon : ∀ e ∈ (setCommon ps).elements, ∃ p ∈ ps, e ∈ p.elements := by
    intro e he
    unfold setCommon at he
    dsimp only at he
    rcases maxLength_mem (ps.map fun p => some p.elements) with h | h
    · rw [h] at he; simp at he
    · obtain ⟨p, hp, e'⟩ := List.mem_map.1 h
      simp only [Option.some.injEq] at e'
      rw [← e'] at he
      exact ⟨p, hp, he⟩
  have hfilter : ps.filter noSpins = [] := by
    rw [List.filter_eq_nil_iff]
    intro p hp; rw [hspin p hp]; simp
  unfold checkSpins
  dsimp only
  rw [hfilter, if_neg (fun h => hne (List.length_eq_zero_iff.1 h.symm)), if_neg (by simp)]
  set C := (spinCombs ps).dedup with hC
  set E := (setCommon ps).elements.dedup with hE
  -- the elements of the combinations cover the common list
  have hcover : E ⊆ C.map (·.1) := by
    intro e he
    rw [hE, List.mem_dedup] at he
    obtain ⟨f, hf⟩ := (hmem e).2 (hcommon e he)
    exact List.mem_map.2 ⟨(e, f), by rw [hC, List.mem_dedup]; exact hf, rfl⟩
  have hEnd : E.Nodup := List.nodup_dedup _
  have hCnd : C.Nodup := List.nodup_dedup _
  constructor
  · intro h
    have hlenCE : C.length = E.length := by
      by_contra hh
      rw [if_pos hh] at h; simp at h
    have hperm : E.Perm (C.map (·.1)) :=
      (List.subperm_of_subset hEnd hcover).perm_of_length_le (by rw [List.length_map, hlenCE])
    have hnd : (C.map (·.1)).Nodup := hperm.nodup_iff.1 hEnd
    constructor
    · intro e f g hf hg
      have := List.inj_on_of_nodup_map hnd (x := (e, f)) (y := (e, g))
        (by rw [hC, List.mem_dedup]; exact hf) (by rw [hC, List.mem_dedup]; exact hg) rfl
      simpa using this
    · intro p hp e he
      obtain ⟨f, hf⟩ := (hmem e).2 ⟨p, hp, he⟩
      have : e ∈ E := hperm.symm.subset
        (List.mem_map.2 ⟨(e, f), by rw [hC, List.mem_dedup]; exact hf, rfl⟩)
      rw [hE, List.mem_dedup] at this
      exact this
  · rintro ⟨h1, h2⟩
    have hnd : (C.map (·.1)).Nodup := by
      apply List.Nodup.map_on ?_ hCnd
      rintro ⟨e, f⟩ hf ⟨e', g⟩ hg hee
      dsimp only at hee
      subst hee
      rw [hC, List.mem_dedup] at hf hg
      rw [h1 e f g hf hg]
    have hsub : C.map (·.1) ⊆ E := by
      intro e he
      obtain ⟨⟨e', f⟩, hf, rfl⟩ := List.mem_map.1 he
      rw [hC, List.mem_dedup] at hf
      obtain ⟨p, hp, hpe⟩ := (hmem e').1 ⟨f, hf⟩
      rw [hE, List.mem_dedup]
      exact h2 p hp e' hpe
    have hl1 := (List.subperm_of_subset hnd hsub).length_le
    have hl2 := (List.subperm_of_subset hEnd hcover).length_le
    rw [List.length_map] at hl1 hl2
    rw [if_neg (by omega)]

end Verif.Params
