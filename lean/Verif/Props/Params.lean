import Verif.Lemmas.Params
import Mathlib.Algebra.Order.Field.Rat
import Mathlib.Tactic.Linarith

/-!
C19 (spins), C20 (active Gaussians) and C55 (Gaussian parameters).
-/

namespace Verif.Params
open Verif.Spec.Params
variable {K V : Type}

/-! ## C19 -/

/-- C19: without spins nothing changes. -/
theorem C19_no_spins (p : Single K V) (hc : checkErrors p = true)
    (h : ∀ s, p.enableSpins = some s → true ∉ s) : mkSingle p = .ok p := by
  unfold mkSingle setParamsSpins
  rw [if_pos hc]
  cases hs : p.enableSpins with
  | none => rfl
  | some s =>
    dsimp only
    rw [if_pos (List.count_eq_zero.2 (h s hs))]

theorem mkSingle_spins {p : Single K V} {energy : List K} {spins : List Bool}
    (he : p.atomicEnergy = some energy) (hs : p.enableSpins = some spins) (ht : true ∈ spins)
    {q : Single K V} (h : mkSingle p = .ok q) :
    q = doubleSpins p energy spins ∧ p.elements.length = p.nType ∧
      energy.length = p.nType ∧ spins.length = p.nType := by
  unfold mkSingle at h
  split at h
  · rename_i hc
    unfold setParamsSpins at h
    rw [hs] at h
    dsimp only at h
    rw [if_neg (fun e => List.count_eq_zero.1 e ht), he] at h
    simp only [Except.ok.injEq] at h
    unfold checkErrors at hc
    rw [he, hs] at hc
    simp only [Option.all_some, Bool.and_eq_true, beq_iff_eq] at hc
    exact ⟨h.symm, hc.1.1, hc.1.2, hc.2⟩
  · simp at h

theorem map_some_getElem? {α : Type} {xs : List α} {o : List ℕ} {src : List α}
    (h : xs.map some = o.map (src[·]?)) (t : ℕ) (i : ℕ) (ht : o[t]? = some i) :
    xs[t]? = src[i]? := by
  have h1 : (xs.map some)[t]? = (o.map (src[·]?))[t]? := by rw [h]
  rw [List.getElem?_map, List.getElem?_map, ht] at h1
  cases hx : xs[t]? with
  | none => rw [hx] at h1; simp at h1
  | some x => rw [hx] at h1; simpa using h1

/-- C19: with spins, the types are numbered `0, 1, …` in the order of the elements, two for each
element with a spin flag and one for the others; every type has the element, the atomic energy
and the flag of the element it comes from, and every pair of types the pair parameters of the
pair of elements it comes from. -/
theorem C19_spins (p : Single K V) (energy : List K) (spins : List Bool)
    (he : p.atomicEnergy = some energy) (hs : p.enableSpins = some spins) (ht : true ∈ spins)
    (hk : p.pairs.keys.Nodup) (hord : ∀ k ∈ p.pairs.keys, k.1 ≤ k.2)
    (q : Single K V) (h : mkSingle p = .ok q) :
    ∃ energy' spins', q.atomicEnergy = some energy' ∧ q.enableSpins = some spins' ∧
      q.nType = (origin spins).length ∧ q.elements.length = q.nType ∧
      energy'.length = q.nType ∧ spins'.length = q.nType ∧
      (∀ t i : ℕ, (origin spins)[t]? = some i → q.elements[t]? = p.elements[i]? ∧
        energy'[t]? = energy[i]? ∧ spins'[t]? = spins[i]?) ∧
      (∀ t1 t2 i1 i2 : ℕ, t1 ≤ t2 → (origin spins)[t1]? = some i1 →
        (origin spins)[t2]? = some i2 → q.pairs.get? (t1, t2) = p.pairs.get? (i1, i2)) ∧
      (∀ k ∈ q.pairs.keys, k.1 ≤ k.2 ∧ k.2 < q.nType) := by
  obtain ⟨rfl, l1, l2, l3⟩ := mkSingle_spins he hs ht h
  have inv := spin_loop p.elements energy spins (by omega) (by omega)
  unfold doubleSpins
  dsimp only
  set acc := List.foldl spinStep {} (((p.elements.zip (energy.zip spins)).zipIdx).map
    fun x => (x.2, x.1)) with hacc
  have hlen : ∀ {α : Type} {xs : List α} {src : List α},
      xs.map some = (origin spins).map (src[·]?) → xs.length = acc.nType := by
    intro α xs src hx
    have := congrArg List.length hx
    rw [List.length_map, List.length_map] at this
    rw [this, inv.nType]
  -- the items written by `revise_params`
  have hitem : ∀ (t1 t2 : ℕ) (v : V), ((t1, t2), v) ∈ (p.pairs.flatMap fun kv =>
      (((acc.mapTypes.get? kv.1.1).getD []) ×ˢ ((acc.mapTypes.get? kv.1.2).getD [])).map fun t =>
        (sortedPair t.1 t.2, kv.2)) ↔
      ∃ a b s1 s2, ((a, b), v) ∈ p.pairs ∧ (origin spins)[s1]? = some a ∧
        (origin spins)[s2]? = some b ∧ sortedPair s1 s2 = (t1, t2) := by
    intro t1 t2 v
    rw [List.mem_flatMap]
    constructor
    · rintro ⟨⟨⟨a, b⟩, w⟩, hm, hx⟩
      rw [List.mem_map] at hx
      obtain ⟨⟨s1, s2⟩, hx1, hx2⟩ := hx
      rw [List.mem_product, inv.map, inv.map, mem_posOf, mem_posOf] at hx1
      rw [Prod.mk.injEq] at hx2
      obtain ⟨hx2, rfl⟩ := hx2
      exact ⟨a, b, s1, s2, hm, hx1.1, hx1.2, hx2⟩
    · rintro ⟨a, b, s1, s2, hm, h1, h2, h3⟩
      refine ⟨((a, b), v), hm, List.mem_map.2 ⟨(s1, s2), ?_, ?_⟩⟩
      · rw [List.mem_product, inv.map, inv.map, mem_posOf, mem_posOf]
        exact ⟨h1, h2⟩
      · dsimp only; rw [h3]
  refine ⟨acc.atomicEnergy, acc.enableSpins, rfl, rfl, inv.nType, hlen inv.elems, hlen inv.ener,
    hlen inv.spin, ?_, ?_, ?_⟩
  · intro t i hti
    exact ⟨map_some_getElem? inv.elems t i hti, map_some_getElem? inv.ener t i hti,
      map_some_getElem? inv.spin t i hti⟩
  · intro t1 t2 i1 i2 hle h1 h2
    have hi := origin_mono spins hle h1 h2
    -- every item for `(t1, t2)` comes from the pair `(i1, i2)`
    have huniq : ∀ a b s1 s2 v, ((a, b), v) ∈ p.pairs → (origin spins)[s1]? = some a →
        (origin spins)[s2]? = some b → sortedPair s1 s2 = (t1, t2) → a = i1 ∧ b = i2 := by
      intro a b s1 s2 v hm g1 g2 g3
      have hab := hord (a, b) (List.mem_map.2 ⟨_, hm, rfl⟩)
      dsimp only at hab
      rcases (sortedPair_eq g3).2 with ⟨rfl, rfl⟩ | ⟨rfl, rfl⟩
      · rw [g1] at h1; rw [g2] at h2
        simp only [Option.some.injEq] at h1 h2
        exact ⟨h1, h2⟩
      · rw [g1] at h2; rw [g2] at h1
        simp only [Option.some.injEq] at h1 h2
        omega
    unfold reviseParams
    cases hp : p.pairs.get? (i1, i2) with
    | none =>
      apply get?_setAll_none
      intro w hw
      obtain ⟨a, b, s1, s2, hm, g1, g2, g3⟩ := (hitem t1 t2 w).1 hw
      obtain ⟨rfl, rfl⟩ := huniq a b s1 s2 w hm g1 g2 g3
      rw [get?_of_mem hk hm] at hp
      simp at hp
    | some v =>
      apply get?_setAll_some
      · refine (hitem t1 t2 v).2 ⟨i1, i2, t1, t2, Dict.mem_of_get? hp, h1, h2, ?_⟩
        unfold sortedPair; rw [if_neg (by omega)]
      · intro w hw
        obtain ⟨a, b, s1, s2, hm, g1, g2, g3⟩ := (hitem t1 t2 w).1 hw
        obtain ⟨rfl, rfl⟩ := huniq a b s1 s2 w hm g1 g2 g3
        rw [get?_of_mem hk hm] at hp
        simpa using hp
  · rintro ⟨t1, t2⟩ hkey
    unfold reviseParams at hkey
    rw [Dict.mem_keys_setAll] at hkey
    rcases hkey with hkey | ⟨v, hkey⟩
    · simp [Dict.keys] at hkey
    · obtain ⟨a, b, s1, s2, hm, g1, g2, g3⟩ := (hitem t1 t2 v).1 hkey
      have b1 := (List.getElem?_eq_some_iff.1 g1).1
      have b2 := (List.getElem?_eq_some_iff.1 g2).1
      obtain ⟨hle, hcase⟩ := sortedPair_eq g3
      refine ⟨hle, ?_⟩
      dsimp only
      rw [inv.nType]
      rcases hcase with ⟨rfl, rfl⟩ | ⟨rfl, rfl⟩ <;> assumption

/-- C19: an element with a spin flag occurs as two types, any other as one, and there are no
others. -/
theorem C19_count (spins : List Bool) (i : ℕ) :
    (origin spins).count i = match spins[i]? with
      | some true => 2
      | some false => 1
      | none => 0 := by
  induction spins using List.reverseRecOn with
  | nil => simp [origin]
  | append_singleton xs s ih =>
    rw [origin_snoc, List.count_append, ih]
    rcases Nat.lt_trichotomy i xs.length with h | h | h
    · rw [List.getElem?_append_left h]
      have hz : (if s = true then [xs.length, xs.length] else [xs.length]).count i = 0 := by
        rw [List.count_eq_zero]
        intro hm
        have : i = xs.length := by split at hm <;> simp at hm <;> exact hm
        omega
      rw [hz, Nat.add_zero]
    · subst h
      rw [List.getElem?_eq_none (le_refl _), List.getElem?_append_right (le_refl _)]
      cases s <;> simp
    · rw [List.getElem?_eq_none (by omega), List.getElem?_eq_none (by simp; omega)]
      have hz : (if s = true then [xs.length, xs.length] else [xs.length]).count i = 0 := by
        rw [List.count_eq_zero]
        intro hm
        have : i = xs.length := by split at hm <;> simp at hm <;> exact hm
        omega
      rw [hz]

/-- C19: the types of one element are consecutive and the elements keep their order. -/
theorem C19_ordered (spins : List Bool) : (origin spins).Pairwise (· ≤ ·) :=
  (origin_sorted spins).1

/-- C19, error branches: lists of the wrong length are rejected, and spins need atomic
energies. -/
theorem C19_errors (p : Single K V) :
    (checkErrors p = false → mkSingle p = .error .assertionError) ∧
    (checkErrors p = true → p.atomicEnergy = none → (∃ s, p.enableSpins = some s ∧ true ∈ s) →
      mkSingle p = .error .typeError) := by
  constructor
  · intro h; unfold mkSingle; rw [if_neg (by rw [h]; simp)]
  · rintro hc ha ⟨s, hs, ht⟩
    unfold mkSingle setParamsSpins
    rw [if_pos hc, hs]
    dsimp only
    rw [if_neg (fun e => List.count_eq_zero.1 e ht), ha]

/-- Fe with spin and O without: Fe types 0 and 1, O type 2. -/
example :
    let p : Single ℤ (List ℕ) := ⟨2, ["Fe", "O"], some [-3, -1], some [true, false],
      [((0, 0), [7]), ((0, 1), [8]), ((1, 1), [9])]⟩
    (mkSingle p).map (fun q => (q.nType, q.elements)) = .ok (3, ["Fe", "Fe", "O"]) ∧
    (mkSingle p).map (fun q => (q.atomicEnergy, q.enableSpins)) =
      .ok (some [-3, -3, -1], some [true, true, false]) ∧
    (mkSingle p).map (fun q => q.pairs) = .ok [((0, 0), [7]), ((0, 1), [7]), ((1, 1), [7]),
      ((0, 2), [8]), ((1, 2), [8]), ((2, 2), [9])] ∧
    p.pairs.keys.Nodup ∧ (∀ k ∈ p.pairs.keys, k.1 ≤ k.2) := by
  refine ⟨by decide +kernel, by decide +kernel, by decide +kernel, by decide +kernel,
    by decide +kernel⟩

/-! ## C55: Gaussian parameters -/

theorem linspace_length {a b : ℚ} {n : ℤ} {xs : List ℚ} (h : linspace a b n = .ok xs) :
    (xs.length : ℤ) = n := by
  unfold linspace at h
  split at h
  · simp at h
  · simp only [Except.ok.injEq] at h
    subst h
    rw [List.length_map, List.length_range]
    omega

/-- C55: the Gaussians of a grid are all combinations of the widths and the centres, followed by
the constant function `(0, 0)`. -/
theorem C55_grid (p1 p2 : ℚ × ℚ × ℤ) (ps : List (ℚ × ℚ)) (h : gaussianGrid p1 p2 = .ok ps) :
    (ps.length : ℤ) = p1.2.2 * p2.2.2 + 1 ∧ ps.getLast? = some (0, 0) ∧
    ∃ g1 g2, linspace p1.1 p1.2.1 p1.2.2 = .ok g1 ∧ linspace p2.1 p2.2.1 p2.2.2 = .ok g2 ∧
      ∀ (i j : ℕ) a b, g1[i]? = some a → g2[j]? = some b →
        ps[i * g2.length + j]? = some (a, b) := by
  unfold gaussianGrid at h
  cases h1 : linspace p1.1 p1.2.1 p1.2.2 with
  | error e => rw [h1] at h; simp [bind, Except.bind] at h
  | ok g1 =>
    cases h2 : linspace p2.1 p2.2.1 p2.2.2 with
    | error e => rw [h1, h2] at h; simp [bind, Except.bind] at h
    | ok g2 =>
      rw [h1, h2] at h
      simp only [bind, Except.bind, pure, Except.pure, Except.ok.injEq] at h
      subst h
      have l1 := linspace_length h1
      have l2 := linspace_length h2
      refine ⟨?_, by simp, g1, g2, rfl, rfl, ?_⟩
      · rw [List.length_append, List.length_product]
        push_cast
        rw [l1, l2]; simp
      · intro i j a b hi hj
        have hjl := (List.getElem?_eq_some_iff.1 hj).1
        have hil := (List.getElem?_eq_some_iff.1 hi).1
        have hb : i * g2.length + j < (g1 ×ˢ g2).length := by
          rw [List.length_product]
          calc i * g2.length + j < i * g2.length + g2.length := by omega
            _ = (i + 1) * g2.length := by ring
            _ ≤ g1.length * g2.length := Nat.mul_le_mul_right _ hil
        rw [List.getElem?_append_left hb]
        clear h1 l1 hb hil
        induction g1 generalizing i with
        | nil => simp at hi
        | cons x g1 ih =>
          rw [List.product_cons]
          cases i with
          | zero =>
            simp only [List.getElem?_cons_zero, Option.some.injEq] at hi
            subst hi
            rw [Nat.zero_mul, Nat.zero_add, List.getElem?_append_left (by simpa using hjl),
              List.getElem?_map, hj]; rfl
          | succ i =>
            rw [List.getElem?_append_right (by rw [List.length_map, Nat.succ_mul]; omega)]
            rw [List.length_map, show (i + 1) * g2.length + j - g2.length = i * g2.length + j by
              rw [Nat.succ_mul]; omega]
            exact ih i (by simpa using hi)

/-- C55: with a number of Gaussians and a cutoff, there are exactly that many functions, the last
one the constant. -/
theorem C55_auto (n : ℤ) (c : ℚ) (ps : List (ℚ × ℚ)) (h : gaussianAuto n (some c) = .ok ps) :
    (ps.length : ℤ) = n ∧ ps.getLast? = some (0, 0) ∧ ∀ p ∈ ps.dropLast, 1 ≤ p.1 := by
  unfold gaussianAuto at h
  simp only [orErr, bind, Except.bind] at h
  cases h1 : linspace 0 1 (n - 1) with
  | error e => rw [h1] at h; simp at h
  | ok g =>
    rw [h1] at h
    dsimp only at h
    have l := linspace_length h1
    cases ha : (g.map (· * (c - 1)))[1]? with
    | none => rw [ha] at h; simp at h
    | some a =>
      cases hb : (g.map (· * (c - 1)))[0]? with
      | none => rw [ha, hb] at h; simp at h
      | some b =>
        rw [ha, hb] at h
        simp only [pure, Except.pure, Except.ok.injEq] at h
        subst h
        refine ⟨?_, by simp, ?_⟩
        · simp; omega
        · intro p hp
          rw [List.dropLast_concat] at hp
          obtain ⟨x, _, rfl⟩ := List.mem_map.1 hp
          exact le_max_left _ _

/-- C55: fewer than three Gaussians cannot be set automatically: `n_gaussians` of 1 or 2 raises
`IndexError`. -/
theorem C55_auto_small (c : ℚ) :
    gaussianAuto 1 (some c) = .error .indexError ∧
    gaussianAuto 2 (some c) = .error .indexError := by
  constructor <;> rfl

example : gaussianAuto 4 (some 6) = .ok [(5 / 2, 0), (5 / 2, 5 / 2), (5 / 2, 5), (0, 0)] ∧
    gaussianGrid (1, 1, 1) (0, 5, 3) = .ok [(1, 0), (1, 5 / 2), (1, 5), (0, 0)] := by
  decide +kernel

/-! ## C20 -/

theorem normDistance_get? {elements : List String} {distance : Dict (List String) (List K)}
    {nd : Dict (String × String) (List K)} (h : normDistance elements distance = .ok nd)
    {a b : String} (hab : elements.idxOf a < elements.idxOf b ∨ a = b) :
    nd.get? (a, b) = given distance a b := by
  unfold normDistance at h
  cases hm : distance.mapM (fun kv => (sortElementPair elements kv.1).map fun k => (k, kv.2)) with
  | error e => rw [hm] at h; simp [bind, Except.bind] at h
  | ok items =>
    rw [hm] at h
    simp only [bind, Except.bind, pure, Except.pure, Except.ok.injEq] at h
    subst h
    unfold given
    rw [Dict.get?_setAll]
    have hnil : Dict.get? ([] : Dict (String × String) (List K)) (a, b) = none := rfl
    rw [hnil, Option.or_none]
    -- relate the two lists
    have hrel : List.Forall₂ (fun (kv : List String × List K) (it : (String × String) × List K) =>
        it.2 = kv.2 ∧ (it.1 = (a, b) ↔ kv.1 = [a, b] ∨ kv.1 = [b, a])) distance items := by
      clear hnil
      induction distance generalizing items with
      | nil =>
        simp only [List.mapM_nil, pure, Except.pure, Except.ok.injEq] at hm
        subst hm; exact .nil
      | cons kv rest ih =>
        rw [List.mapM_cons] at hm
        simp only [bind, Except.bind, pure, Except.pure] at hm
        cases hk : sortElementPair elements kv.1 with
        | error e => rw [hk] at hm; simp [Except.map] at hm
        | ok k =>
          rw [hk] at hm
          simp only [Except.map] at hm
          cases hr : rest.mapM (fun kv =>
              (sortElementPair elements kv.1).map fun k => (k, kv.2)) with
          | error e =>
            simp only [Except.map] at hr
            rw [hr] at hm; simp at hm
          | ok its =>
            have hr' := hr
            simp only [Except.map] at hr
            rw [hr] at hm
            simp only [Except.ok.injEq] at hm
            subst hm
            refine .cons ⟨rfl, ?_⟩ (ih its hr')
            dsimp only
            unfold sortElementPair at hk
            split at hk
            · rename_i x y hxy
              rw [hxy]
              split at hk
              · simp only [Except.ok.injEq] at hk
                subst hk
                simp only [List.cons.injEq, and_true]
                split
                · rename_i hlt
                  rw [Prod.mk.injEq]
                  constructor
                  · rintro ⟨rfl, rfl⟩; right; exact ⟨rfl, rfl⟩
                  · rintro (⟨rfl, rfl⟩ | ⟨rfl, rfl⟩)
                    · rcases hab with h | h
                      · omega
                      · exact ⟨h.symm, h⟩
                    · exact ⟨rfl, rfl⟩
                · rename_i hlt
                  rw [Prod.mk.injEq]
                  constructor
                  · rintro ⟨rfl, rfl⟩; left; exact ⟨rfl, rfl⟩
                  · rintro (⟨rfl, rfl⟩ | ⟨rfl, rfl⟩)
                    · exact ⟨rfl, rfl⟩
                    · rcases hab with h | h
                      · omega
                      · exact ⟨h.symm, h⟩
              · simp at hk
            · simp at hk
    have hrev := List.rel_reverse hrel
    generalize distance.reverse = l1 at hrev ⊢
    generalize items.reverse = l2 at hrev ⊢
    clear hrel hm hnil
    induction hrev with
    | nil => rfl
    | @cons kv it _ _ h1 _ ih =>
      by_cases hit : it.1 = (a, b)
      · rw [List.find?_cons_of_pos (by simpa using hit),
          List.find?_cons_of_pos (by simpa using h1.2.1 hit)]
        simp [h1.1]
      · rw [List.find?_cons_of_neg (by simpa using hit),
          List.find?_cons_of_neg (by
            simp only [decide_eq_true_eq]; exact fun e => hit (h1.2.2 e))]
        exact ih

section Active
variable [Field K] [LinearOrder K]

theorem inWindow_iff [IsStrictOrderedRing K] (p : K × K) (d : K) :
    inWindow p d = true ↔ Sees p d := by
  unfold inWindow Sees
  by_cases h : p.1 = 0
  · simp [h]
  · rw [if_neg h, Bool.and_eq_true, decide_eq_true_eq, decide_eq_true_eq]
    constructor
    · rintro ⟨h1, h2⟩; right; exact ⟨by linarith, by linarith⟩
    · rintro (h0 | ⟨h1, h2⟩)
      · exact absurd h0 h
      · exact ⟨by linarith, by linarith⟩

theorem mem_activeIndices [IsStrictOrderedRing K] (ps : List (K × K)) (dis : List K) (m : ℕ) :
    m ∈ activeIndices ps dis ↔ m = ps.length - 1 ∨
      ∃ p, ps.dropLast[m]? = some p ∧ ∃ d ∈ dis, Sees p d := by
  unfold activeIndices
  dsimp only
  rw [List.mem_insertionSort, List.mem_dedup, List.mem_cons, List.mem_flatMap]
  constructor
  · rintro (h | ⟨d, hd, h⟩)
    · exact .inl h
    · rw [List.mem_map] at h
      obtain ⟨⟨p, i⟩, hp, rfl⟩ := h
      rw [List.mem_filter, List.mk_mem_zipIdx_iff_getElem?] at hp
      exact .inr ⟨p, hp.1, d, hd, (inWindow_iff p d).1 hp.2⟩
  · rintro (h | ⟨p, hp, d, hd, h⟩)
    · exact .inl h
    · refine .inr ⟨d, hd, List.mem_map.2 ⟨(p, m), ?_, rfl⟩⟩
      rw [List.mem_filter, List.mk_mem_zipIdx_iff_getElem?]
      exact ⟨hp, (inWindow_iff p d).2 h⟩

theorem activeIndices_sorted (ps : List (K × K)) (dis : List K) :
    (activeIndices ps dis).Pairwise (· < ·) := by
  unfold activeIndices
  dsimp only
  generalize (ps.length - 1) :: dis.flatMap (fun d =>
    (ps.dropLast.zipIdx.filter fun p => inWindow p.1 d).map (·.2)) = xs
  have h1 : (xs.dedup.insertionSort (· ≤ ·)).Pairwise (· ≤ ·) := List.pairwise_insertionSort _ _
  have h2 : (xs.dedup.insertionSort (· ≤ ·)).Nodup :=
    (List.perm_insertionSort _ _).nodup_iff.2 (List.nodup_dedup _)
  exact (h1.and h2).imp (fun h => lt_of_le_of_ne h.1 h.2)

theorem activePairs_get? (ps : List (K × K)) (elements : List String) (hn : elements.Nodup)
    (nd : Dict (String × String) (List K)) {i j : ℕ} {a b : String} (hij : i ≤ j)
    (ha : elements[i]? = some a) (hb : elements[j]? = some b) :
    (activePairs ps elements nd).get? (i, j) = some (match nd.get? (a, b) with
      | none => List.range ps.length
      | some dis => activeIndices ps dis) := by
  unfold activePairs
  apply get?_setAll_some
  · refine List.mem_map.2 ⟨(a, b), (mem_pairsWithReplacement elements a b).2 ⟨i, j, hij, ha, hb⟩, ?_⟩
    dsimp only
    rw [atomType_eq elements hn ha, atomType_eq elements hn hb]
    rfl
  · intro w hw
    obtain ⟨⟨x, y⟩, hxy, e⟩ := List.mem_map.1 hw
    obtain ⟨i', j', _, hx, hy⟩ := (mem_pairsWithReplacement elements x y).1 hxy
    dsimp only at e
    rw [atomType_eq elements hn hx, atomType_eq elements hn hy, Prod.mk.injEq, Prod.mk.injEq] at e
    obtain ⟨⟨rfl, rfl⟩, rfl⟩ := e
    rw [ha] at hx; rw [hb] at hy
    simp only [Option.some.injEq] at hx hy
    rw [hx, hy]
    rfl

theorem activePairs_keys (ps : List (K × K)) (elements : List String) (hn : elements.Nodup)
    (nd : Dict (String × String) (List K)) (k : ℕ × ℕ) :
    k ∈ (activePairs ps elements nd).keys ↔ k.1 ≤ k.2 ∧ k.2 < elements.length := by
  constructor
  · intro h
    unfold activePairs at h
    rw [Dict.mem_keys_setAll] at h
    rcases h with h | ⟨v, h⟩
    · simp [Dict.keys] at h
    · obtain ⟨⟨x, y⟩, hxy, e⟩ := List.mem_map.1 h
      obtain ⟨i', j', hle, hx, hy⟩ := (mem_pairsWithReplacement elements x y).1 hxy
      dsimp only at e
      rw [atomType_eq elements hn hx, atomType_eq elements hn hy, Prod.mk.injEq] at e
      obtain ⟨rfl, _⟩ := e
      exact ⟨hle, (List.getElem?_eq_some_iff.1 hy).1⟩
  · rintro ⟨h1, h2⟩
    rw [Dict.mem_keys_iff, show k = (k.1, k.2) from rfl, activePairs_get? ps elements hn nd h1
      (List.getElem?_eq_getElem (show k.1 < elements.length by omega))
      (List.getElem?_eq_getElem h2)]
    rfl

/-- C20: for distinct elements and at least one radial function, if `set_active_gaussian_params`
succeeds it gives exactly one entry for each unordered pair of types; the entry is strictly
increasing, refers to existing functions and contains the last one; any other function is active
exactly when no distance was given for the pair of elements or it sees one of the distances
given, in whichever order the two elements were written. -/
theorem C20_active [IsStrictOrderedRing K] (ps : List (K × K)) (hps : ps ≠ [])
    (elements : List String)
    (hn : elements.Nodup) (distance : Option (Dict (List String) (List K)))
    (act : Dict (ℕ × ℕ) (List ℕ)) (cond : Bool)
    (h : setActive ps elements distance = .ok (act, cond)) :
    cond = distance.isSome ∧
    (∀ k, k ∈ act.keys ↔ k.1 ≤ k.2 ∧ k.2 < elements.length) ∧
    ∀ (i j : ℕ) (a b : String), i ≤ j → elements[i]? = some a → elements[j]? = some b →
      ∃ idx, act.get? (i, j) = some idx ∧ idx.Pairwise (· < ·) ∧ (∀ m ∈ idx, m < ps.length) ∧
        ps.length - 1 ∈ idx ∧
        ∀ (m : ℕ) p, m < ps.length - 1 → ps[m]? = some p →
          (m ∈ idx ↔ ∀ dis, given (distance.getD []) a b = some dis → ∃ d ∈ dis, Sees p d) := by
  -- common form
  obtain ⟨nd, rfl, hcond, hget⟩ : ∃ nd, act = activePairs ps elements nd ∧
      cond = distance.isSome ∧ ∀ a b, (elements.idxOf a < elements.idxOf b ∨ a = b) →
        nd.get? (a, b) = given (distance.getD []) a b := by
    unfold setActive at h
    cases distance with
    | none =>
      simp only [Except.ok.injEq, Prod.mk.injEq] at h
      exact ⟨[], h.1.symm, h.2.symm, fun a b _ => rfl⟩
    | some d =>
      dsimp only at h
      cases hnd : normDistance elements d with
      | error e => rw [hnd] at h; simp [bind, Except.bind] at h
      | ok nd =>
        rw [hnd] at h
        simp only [bind, Except.bind, pure, Except.pure, Except.ok.injEq, Prod.mk.injEq] at h
        exact ⟨nd, h.1.symm, h.2.symm, fun a b hab => normDistance_get? hnd hab⟩
  have hpos : 0 < ps.length := List.length_pos_of_ne_nil hps
  refine ⟨hcond, activePairs_keys ps elements hn nd, ?_⟩
  intro i j a b hij ha hb
  have hab : elements.idxOf a < elements.idxOf b ∨ a = b := by
    obtain ⟨l1, rfl⟩ := List.getElem?_eq_some_iff.1 ha
    obtain ⟨l2, rfl⟩ := List.getElem?_eq_some_iff.1 hb
    rw [List.Nodup.idxOf_getElem hn, List.Nodup.idxOf_getElem hn]
    rcases Nat.lt_or_ge i j with h | h
    · exact .inl h
    · right
      have : i = j := by omega
      subst this; rfl
  refine ⟨_, activePairs_get? ps elements hn nd hij ha hb, ?_⟩
  rw [hget a b hab]
  cases hg : given (distance.getD []) a b with
  | none =>
    refine ⟨List.pairwise_lt_range, fun m hm => List.mem_range.1 hm,
      List.mem_range.2 (by omega), ?_⟩
    intro m p hm _
    constructor
    · intro _ dis hd; simp at hd
    · intro _; exact List.mem_range.2 (by omega)
  | some dis =>
    refine ⟨activeIndices_sorted ps dis, ?_, ?_, ?_⟩
    · intro m hm
      rcases (mem_activeIndices ps dis m).1 hm with h | ⟨p, hp, _⟩
      · omega
      · have := (List.getElem?_eq_some_iff.1 hp).1
        rw [List.length_dropLast] at this; omega
    · exact (mem_activeIndices ps dis _).2 (.inl rfl)
    · intro m p hm hp
      dsimp only
      rw [mem_activeIndices]
      constructor
      · rintro (h | ⟨q, hq, h⟩) dis' hd'
        · omega
        · rw [List.getElem?_dropLast, if_pos hm] at hq
          rw [hp] at hq
          simp only [Option.some.injEq] at hq hd'
          subst hq; subst hd'
          exact h
      · intro h
        exact .inr ⟨p, by rw [List.getElem?_dropLast, if_pos hm]; exact hp, h dis rfl⟩

/-- C20, error branches: success exactly when every key is a pair of elements of the
potential. -/
theorem C20_errors (ps : List (K × K)) (elements : List String)
    (d : Dict (List String) (List K)) :
    (∃ r, setActive ps elements (some d) = .ok r) ↔
      ∀ k ∈ d.keys, k.length = 2 ∧ ∀ e ∈ k, e ∈ elements := by
  have key : (∃ nd, normDistance elements d = .ok nd) ↔
      ∀ k ∈ d.keys, k.length = 2 ∧ ∀ e ∈ k, e ∈ elements := by
    have one : ∀ k : List String, (∃ p, sortElementPair elements k = .ok p) ↔
        k.length = 2 ∧ ∀ e ∈ k, e ∈ elements := by
      intro k
      unfold sortElementPair
      split
      · rename_i x y
        constructor
        · rintro ⟨p, hp⟩
          split at hp
          · rename_i hxy
            exact ⟨rfl, by simpa using hxy⟩
          · simp at hp
        · rintro ⟨_, he⟩
          rw [if_pos ⟨he x (by simp), he y (by simp)⟩]
          exact ⟨_, rfl⟩
      · rename_i hne
        constructor
        · rintro ⟨p, hp⟩; simp at hp
        · rintro ⟨hl, _⟩
          obtain ⟨x, y, rfl⟩ := List.length_eq_two.1 hl
          exact absurd rfl (hne x y)
    unfold normDistance
    induction d with
    | nil => exact ⟨fun _ => by simp [Dict.keys], fun _ => ⟨[], rfl⟩⟩
    | cons kv rest ih =>
      have hk : Dict.keys (kv :: rest) = kv.1 :: Dict.keys rest := rfl
      rw [hk, List.forall_mem_cons, List.mapM_cons]
      refine Iff.trans ?_ (and_congr (one kv.1) ih)
      cases hs : sortElementPair elements kv.1 with
      | error e => simp [Except.map, bind, Except.bind]
      | ok k =>
        simp only [Except.map, bind, Except.bind, pure, Except.pure]
        constructor
        · rintro ⟨nd, hnd⟩
          refine ⟨⟨k, rfl⟩, ?_⟩
          split at hnd
          · simp at hnd
          · rename_i its hits
            split at hits
            · simp at hits
            · rename_i its' hits'
              exact ⟨Dict.setAll [] its', rfl⟩
        · rintro ⟨_, nd, hnd⟩
          split at hnd
          · simp at hnd
          · rename_i its hits
            exact ⟨_, rfl⟩
  rw [← key]
  unfold setActive
  dsimp only
  constructor
  · rintro ⟨r, hr⟩
    cases hnd : normDistance elements d with
    | error e => rw [hnd] at hr; simp [bind, Except.bind] at hr
    | ok nd => exact ⟨nd, rfl⟩
  · rintro ⟨nd, hnd⟩
    rw [hnd]; exact ⟨_, rfl⟩

end Active

example :
    let ps : List (ℚ × ℚ) := [(1, 0), (1, 2), (1, 4), (0, 0)]
    (∃ r, setActive ps ["Sr", "Ti"] (some [(["Ti", "Sr"], [5 / 2])]) = .ok r ∧
      r.1.get? (0, 1) = some [1, 3] ∧ r.1.get? (0, 0) = some [0, 1, 2, 3]) := by
  refine ⟨_, rfl, ?_⟩
  decide +kernel

end Verif.Params
