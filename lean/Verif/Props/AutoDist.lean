import Mathlib.Tactic.NormNum
import Mathlib.Tactic.FieldSimp
import Mathlib.Tactic.Ring
import Mathlib.Tactic.Linarith
import Mathlib.Data.List.Basic
import Verif.Lemmas.Py
import Verif.Props.Formation
import Verif.Spec.AutoDist

/-!
# C106: automatic comparison with first principles
-/

namespace Verif.AutoDist

open Formation Spec

variable {St F K : Type} [Field K] [LinearOrder K]

theorem mapM_value {α β : Type} (f : α → Except Err β) (v : α → β) : ∀ l : List α, (∀ x ∈ l, f x = .ok (v x)) →
    l.mapM f = .ok (l.map v)
  | [], _ => rfl
  | x :: l, h => by
    rw [List.mapM_cons, h x (by simp), mapM_value f v l fun y hy => h y (by simp [hy])]
    rfl

theorem cohesive_eq (s : Setup St F K) (table : Dict String K) (a : String → K) (r : St × K)
    (h : ∀ e ∈ (s.cand r.1).elements, table.get? e = some (a e)) :
    cohesive s table r = .ok (r.2 - ((s.cand r.1).elements.map a).sum) := by
  unfold cohesive
  rw [mapM_value _ a _ fun e he => by rw [h e he]; rfl]
  rfl

theorem evalEnergies_eq (s : Setup St F K) (table : Dict String K) (a : String → K) (v : St → K) (vaspruns : List F)
    (rows : List (St × K)) (hne : vaspruns ≠ []) (hp : s.parse vaspruns = .ok rows)
    (ha : ∀ r ∈ rows, ∀ e ∈ (s.cand r.1).elements, table.get? e = some (a e))
    (hv : ∀ r ∈ rows, s.pot r.1 = .ok (v r.1)) :
    evalEnergies s (.ok table) vaspruns =
      .ok ⟨rows.map (·.1), rows.map (fun r => (s.cand r.1).nAtoms.sum),
        rows.map (fun r => r.2 - ((s.cand r.1).elements.map a).sum), rows.map fun r => v r.1⟩ := by
  unfold evalEnergies
  have h0 : ¬ vaspruns.length = 0 := fun h => hne (List.length_eq_zero_iff.1 h)
  rw [if_neg h0]
  simp only [orErr, bind, Except.bind, pure, Except.pure, hp]
  rw [mapM_value _ _ _ fun r hr => cohesive_eq s table a r (ha r hr)]
  simp only []
  rw [mapM_value s.pot v _ (by
    intro x hx
    obtain ⟨r, hr, rfl⟩ := List.mem_map.1 hx
    exact hv r hr), List.map_map]
  rfl

theorem textLe_trans : ∀ x y z : List Char, textLe x y = true → textLe y z = true → textLe x z = true
  | [], _, _, _, _ => by simp [textLe]
  | _ :: _, [], _, h, _ => by simp [textLe] at h
  | _ :: _, _ :: _, [], _, h => by simp [textLe] at h
  | a :: x, b :: y, c :: z, h1, h2 => by
    unfold textLe at h1 h2 ⊢
    by_cases hab : a = b
    · subst hab
      rw [if_pos rfl] at h1
      by_cases hac : a = c
      · subst hac
        rw [if_pos rfl] at h2 ⊢
        exact textLe_trans x y z h1 h2
      · rw [if_neg hac] at h2 ⊢
        exact h2
    · rw [if_neg hab] at h1
      by_cases hbc : b = c
      · subst hbc
        rw [if_neg hab]
        exact h1
      · rw [if_neg hbc] at h2
        simp only [decide_eq_true_eq] at h1 h2
        have hac : a ≠ c := by rintro rfl; omega
        rw [if_neg hac, decide_eq_true_eq]
        omega

theorem textLe_total : ∀ x y : List Char, (textLe x y || textLe y x) = true
  | [], _ => by simp [textLe]
  | _ :: _, [] => by simp [textLe]
  | a :: x, b :: y => by
    unfold textLe
    by_cases hab : a = b
    · subst hab
      simp only [if_true]
      exact textLe_total x y
    · have hn : a.toNat ≠ b.toNat := fun h => hab (Char.toNat_inj.1 h)
      rw [if_neg hab, if_neg (Ne.symm hab)]
      simp only [Bool.or_eq_true, decide_eq_true_eq]
      omega

/-- C106 (comparison).  The rows of the comparison are those of the files, each once: cohesive energy per atom from first
principles (the energy minus the atomic energies of its own atoms), energy per atom of the potential, and the name.  They
are in the order of their texts.  Without files, or with another number of names, the call is refused. -/
theorem C106_comparison (s : Setup St F K) (table : Dict String K) (a : String → K) (v : St → K) (round : K → K)
    (text : K → List Char) (names : List (List Char)) (vaspruns : List F) (rows : List (St × K))
    (hread : Readable s table a v vaspruns rows) :
    compareWithDft s (.ok table) round text (.ok names) [] = .error .runtimeError ∧
    (rows.length ≠ names.length → compareWithDft s (.ok table) round text (.ok names) vaspruns = .error .valueError) ∧
    (rows.length = names.length → ∃ res, compareWithDft s (.ok table) round text (.ok names) vaspruns = .ok res ∧
      List.Perm res (List.zipWith (fun r n =>
        (text (round ((r.2 - ((s.cand r.1).elements.map a).sum) / ((s.cand r.1).elements.length : K))),
          text (round (v r.1 / ((s.cand r.1).elements.length : K))), n)) rows names) ∧
      res.Pairwise fun x y => textLe x.1 y.1 = true) := by
  obtain ⟨hne, hp, ht, ha, hv⟩ := hread
  have hN : ∀ (f : St × K → K), List.zipWith (fun (x : K) (n : ℕ) => x / (n : K)) (rows.map f)
      (rows.map fun r => (s.cand r.1).nAtoms.sum) = rows.map fun r => f r / ((s.cand r.1).elements.length : K) := by
    intro f
    rw [List.zipWith_map, List.zipWith_self]
    exact List.map_congr_left fun r hr => by rw [(ht r hr).2.2.1]
  have he := evalEnergies_eq s table a v vaspruns rows hne hp ha hv
  refine ⟨rfl, fun hl => ?_, fun hl => ?_⟩
  · unfold compareWithDft comparison
    rw [he]
    simp only [bind, Except.bind, perAtom, hN, List.length_map]
    rw [if_neg (by simpa using hl)]
    rfl
  · unfold compareWithDft comparison
    rw [he]
    simp only [bind, Except.bind, perAtom, hN, List.length_map]
    rw [if_pos (by simpa using hl)]
    refine ⟨_, rfl, ?_, ?_⟩
    · refine (List.mergeSort_perm _ _).trans (List.Perm.of_eq ?_)
      clear he hN ht ha hv hp
      induction rows generalizing names with
      | nil => simp
      | cons r rows ih =>
        cases names with
        | nil => simp at hl
        | cons n names =>
          have := ih names (by simpa using hl)
          simp only [List.map_map, List.map_cons, List.zip_cons_cons, List.zipWith_cons_cons, List.cons.injEq, true_and] at this ⊢
          exact this
    · apply List.pairwise_mergeSort
      · intro x y z; exact textLe_trans x.1 y.1 z.1
      · intro x y; exact textLe_total x.1 y.1


/-! ## Formation energies -/

theorem pinv_one {n : ℕ} (p : Matrix (Fin n) (Fin n) K) (h : IsPinv (1 : Matrix (Fin n) (Fin n) K) p) : p = 1 := by
  have := h.1
  simpa using this

theorem count_sum (elements : List String) (hn : elements.Nodup) (f : String → K) : ∀ l : List String, (∀ e ∈ l, e ∈ elements) →
    ∑ i : Fin elements.length, (l.count elements[i] : K) * f elements[i] = (l.map f).sum
  | [], _ => by simp
  | x :: l, h => by
    rw [List.map_cons, List.sum_cons, ← count_sum elements hn f l fun e he => h e (by simp [he])]
    obtain ⟨k, hk, rfl⟩ := List.mem_iff_getElem.1 (h x (by simp))
    have hc : ∀ i : Fin elements.length, ((elements[k] :: l).count elements[i] : K) =
        (l.count elements[i] : K) + if i = ⟨k, hk⟩ then 1 else 0 := by
      intro i
      rw [List.count_cons]
      by_cases hi : i = ⟨k, hk⟩
      · subst hi; simp
      · have : elements[k] ≠ elements[i] := by
          intro he
          apply hi
          have := (List.Nodup.getElem_inj_iff hn).1 he
          exact Fin.ext this.symm
        rw [if_neg (by simpa using this), if_neg hi]
        simp
    simp only [hc, add_mul, Finset.sum_add_distrib]
    rw [add_comm]
    congr 1
    simp

/-- The composition object with given energies of the elements. -/
def withEnds (s : Setup St F K) (en : Fin s.elements.length → K) : Composition s.elements.length s.elements.length K :=
  { Composition.new s.pinv (fun i j => if i = j then (1 : K) else 0) with energies := some en }

/-- The rows of given end members. -/
theorem rows_eq (s : Setup St F K) (hn : s.elements.Nodup) (hpinv : IsPinv 1 (s.pinv 1)) (en : Fin s.elements.length → K)
    (l : List (St × K)) (f : St × K → K) (ht : ∀ r ∈ l, ∀ e ∈ (s.cand r.1).elements, e ∈ s.elements) :
    rowsOf s (withEnds s en) (l.map (·.1)) (l.map f) =
        .ok (l.map fun r => formationRow s.elements en (s.cand r.1) (f r)) := by
  have h1 : (Matrix.of fun i j : Fin s.elements.length => if j = i then (1 : K) else 0) = 1 := by
    ext i j; simp [Matrix.one_apply, eq_comm]
  unfold withEnds Composition.new rowsOf compute
  simp only [orErr, bind, Except.bind, List.length_map, if_true]
  unfold Composition.formationEnergies Composition.getCompositions
  simp only [h1, pinv_one _ hpinv, Matrix.mul_one, Matrix.one_mulVec, ne_eq, not_true_eq_false, decide_false, bind, Except.bind,
    orErr, List.length_map, if_true, pure, Except.pure]
  rw [if_neg (by simp)]
  simp only [Except.ok.injEq, List.map_map]
  rw [List.zipWith_map, List.zipWith_self]
  refine List.map_congr_left fun r hr => ?_
  have hs : ∑ i : Fin s.elements.length, ((s.cand r.1).elements.count s.elements[i] : K) = ((s.cand r.1).elements.length : K) := by
    have := count_sum s.elements hn (fun _ => (1 : K)) (s.cand r.1).elements (ht r hr)
    simpa using this
  unfold formationRow
  simp only [Function.comp, nAtomsOf, hs, Prod.mk.injEq]
  refine ⟨trivial, ?_⟩
  congr 2
  exact Finset.sum_congr rfl fun i _ => mul_comm _ _

theorem isCand_iff {elements : List String} {c : Cand} (h : Tidy elements c) (ele : String) : IsCand ele c ↔ PureOf ele c := by
  obtain ⟨h1, h2, h3, h4⟩ := h
  constructor
  · rintro ⟨hl, hh⟩ e he
    obtain ⟨x, hx⟩ := h4.1 hl
    rw [hx e he]
    exact (hx ele (List.mem_of_mem_head? (by rw [hh]; rfl))).symm
  · intro hp
    refine ⟨h4.2 ⟨ele, hp⟩, ?_⟩
    cases he : c.elements with
    | nil => exact absurd he h1
    | cons x l => rw [List.head?_cons, hp x (by rw [he]; simp)]

theorem ends_eq (s : Setup St F K) (rows : List (St × K)) (f : St × K → K)
    (ht : ∀ r ∈ rows, Tidy s.elements (s.cand r.1))
    (hb : ∀ ele ∈ s.elements, ∃ r ∈ rows, PureOf ele (s.cand r.1) ∧ f r / ((s.cand r.1).elements.length : K) < s.big) :
    ∃ en, endMembers s (rows.map (·.1)) (rows.map f) = .ok (withEnds s en) ∧
      ∀ i, LowestPure (rows.map fun r => (s.cand r.1, f r)) s.elements[i] (en i) := by
  have hz : ((rows.map (·.1)).map s.cand).zip (rows.map f) = rows.map fun r => (s.cand r.1, f r) := by
    rw [List.map_map]
    clear ht hb
    induction rows with
    | nil => rfl
    | cons r rows ih => simp only [List.map_cons, List.zip_cons_cons, ih]; rfl
  have htidy : ∀ p ∈ rows.map (fun r => (s.cand r.1, f r)), Tidy s.elements p.1 := by
    intro p hp
    obtain ⟨r, hr, rfl⟩ := List.mem_map.1 hp
    exact ht r hr
  obtain ⟨res, h1, h2⟩ := (C48_find_endmembers s.big (rows.map fun r => (s.cand r.1, f r))
    (fun p hp _ => (htidy p hp).1) s.elements).1 (by
      intro ele he
      obtain ⟨r, hr, hp, hlt⟩ := hb ele he
      exact ⟨_, List.mem_map.2 ⟨r, hr, rfl⟩, (isCand_iff (ht r hr) ele).2 hp, hlt⟩)
  have hlen : s.elements.length = res.length := h2.length_eq
  refine ⟨fun i => (res[i.1]'(by rw [← hlen]; exact i.2)).2, ?_, fun i => ?_⟩
  · unfold endMembers
    rw [hz, h1]
    simp only [bind, Except.bind]
    unfold Composition.setEnergies
    rw [dif_neg (by simpa using hlen)]
    simp only [Except.ok.injEq]
    unfold withEnds
    congr 2
    funext i
    simp
  · have hi := h2.get (i := i.1) i.2 (by rw [← hlen]; exact i.2)
    simp only [List.get_eq_getElem] at hi
    obtain ⟨g1, ⟨p, hp, hpe, hval⟩, g3⟩ := hi
    refine ⟨⟨p, hp, (isCand_iff (htidy p hp) _).1 (by rw [hpe]; exact g1), hval⟩, fun q hq hpure => ?_⟩
    exact g3 q hq ((isCand_iff (htidy q hq) _).2 hpure)

section
variable [IsStrictOrderedRing K]

theorem pure_sum {c : Cand} {ele : String} (h : PureOf ele c) (a : String → K) :
    (c.elements.map a).sum = (c.elements.length : K) * a ele := by
  have : c.elements.map a = List.replicate c.elements.length (a ele) := by
    rw [List.eq_replicate_iff]
    refine ⟨by simp, fun x hx => ?_⟩
    obtain ⟨e, he, rfl⟩ := List.mem_map.1 hx
    rw [h e he]
  rw [this]; simp

theorem lowest_shift (s : Setup St F K) (rows : List (St × K)) (a : String → K) (f : St × K → K)
    (ht : ∀ r ∈ rows, Tidy s.elements (s.cand r.1)) (ele : String) (e : K)
    (h : LowestPure (rows.map fun r => (s.cand r.1, f r - ((s.cand r.1).elements.map a).sum)) ele e) :
    LowestPure (rows.map fun r => (s.cand r.1, f r)) ele (e + a ele) := by
  have hn : ∀ r ∈ rows, ((s.cand r.1).elements.length : K) ≠ 0 := fun r hr => by
    rw [Nat.cast_ne_zero, ne_eq, List.length_eq_zero_iff]; exact (ht r hr).1
  have hd : ∀ r ∈ rows, PureOf ele (s.cand r.1) →
      (f r - ((s.cand r.1).elements.map a).sum) / ((s.cand r.1).elements.length : K) =
        f r / ((s.cand r.1).elements.length : K) - a ele := by
    intro r hr hp
    rw [pure_sum hp, sub_div, mul_div_cancel_left₀ _ (hn r hr)]
  obtain ⟨⟨p, hp, hpure, hval⟩, hle⟩ := h
  obtain ⟨r, hr, rfl⟩ := List.mem_map.1 hp
  refine ⟨⟨_, List.mem_map.2 ⟨r, hr, rfl⟩, hpure, ?_⟩, ?_⟩
  · simp only at hval hpure ⊢
    rw [hval, hd r hr hpure]; ring
  · intro q hq hqp
    obtain ⟨r', hr', rfl⟩ := List.mem_map.1 hq
    have := hle _ (List.mem_map.2 ⟨r', hr', rfl⟩) hqp
    simp only at this hqp ⊢
    rw [hd r' hr' hqp] at this
    linarith

theorem row_shift (elements : List String) (hn : elements.Nodup) (a : String → K) (ends : Fin elements.length → K) (c : Cand)
    (hc : ∀ e ∈ c.elements, e ∈ elements) (energy : K) :
    formationRow elements ends c (energy - (c.elements.map a).sum) =
      formationRow elements (fun i => ends i + a elements[i]) c energy := by
  unfold formationRow
  rw [Prod.mk.injEq]
  refine ⟨rfl, ?_⟩
  rw [← count_sum elements hn a c.elements hc]
  congr 1
  simp only [mul_add, Finset.sum_add_distrib]
  ring

/-- C106 (formation energies).  For more than one element: the formation energies of the files, in their order and beside
their names, are the energies minus those of the same atoms in the pure elements, per atom; the energy of a pure element
is the lowest one per atom among the given pure structures, separately for first principles and for the potential.  The
atomic energies, and with them the functional, play no role: they cancel. -/
theorem C106_formation (s : Setup St F K) (hpinv : IsPinv 1 (s.pinv 1)) (table : Dict String K) (a : String → K) (v : St → K)
    (names : List (List Char)) (vaspruns : List F) (rows : List (St × K)) (hread : Readable s table a v vaspruns rows)
    (hends : HasEnds s a v rows) :
    ∃ ed em : Fin s.elements.length → K,
      (∀ i, LowestPure (rows.map fun r => (s.cand r.1, r.2)) s.elements[i] (ed i)) ∧
      (∀ i, LowestPure (rows.map fun r => (s.cand r.1, v r.1)) s.elements[i] (em i)) ∧
      ∃ d, calcFormation s (.ok table) (.ok names) false vaspruns = .ok (some d) ∧ d.names = names ∧
        d.dft = rows.map (fun r => formationRow s.elements ed (s.cand r.1) r.2) ∧
        d.mlp = rows.map (fun r => formationRow s.elements em (s.cand r.1) (v r.1)) ∧ d.go = none ∧
        s.hull d.dft = .ok d.dftHull ∧ s.hull d.mlp = .ok d.mlpHull := by
  obtain ⟨hne, hp, ht, ha, hv⟩ := hread
  obtain ⟨hel, hnd, hb, hb', hh⟩ := hends
  have hel' : ∀ r ∈ rows, ∀ e ∈ (s.cand r.1).elements, e ∈ s.elements := fun r hr => (ht r hr).2.1
  obtain ⟨ed, c1, g1⟩ := ends_eq s rows (fun r => r.2 - ((s.cand r.1).elements.map a).sum) ht hb
  obtain ⟨em, c2, g2⟩ := ends_eq s rows (fun r => v r.1) ht hb'
  have hshift : (rows.map fun r => formationRow s.elements ed (s.cand r.1) (r.2 - ((s.cand r.1).elements.map a).sum)) =
      rows.map (fun r => formationRow s.elements (fun i => ed i + a s.elements[i]) (s.cand r.1) r.2) :=
    List.map_congr_left fun r hr => row_shift s.elements hnd a _ _ (hel' r hr) r.2
  refine ⟨fun i => ed i + a s.elements[i], em, fun i => lowest_shift s rows a (fun r => r.2) ht _ _ (g1 i), g2, ?_⟩
  obtain ⟨hd, e1⟩ := hh (rows.map (fun r => formationRow s.elements (fun i => ed i + a s.elements[i]) (s.cand r.1) r.2))
  obtain ⟨hm, e2⟩ := hh (rows.map (fun r => formationRow s.elements em (s.cand r.1) (v r.1)))
  refine ⟨⟨names, _, hd, _, hm, none⟩, ?_, rfl, rfl, rfl, rfl, e1, e2⟩
  unfold calcFormation
  rw [if_neg hel]
  unfold formationData
  rw [evalEnergies_eq s table a v vaspruns rows hne hp ha hv]
  simp only [bind, Except.bind, c1, c2]
  rw [rows_eq s hnd hpinv ed rows _ hel', hshift]
  simp only [e1]
  rw [rows_eq s hnd hpinv em rows _ hel']
  simp only [e2, optimizedPart, pure, Except.pure, Except.map]

theorem lowest_unique {l : List (Cand × K)} {ele : String} {e e' : K} (h : LowestPure l ele e) (h' : LowestPure l ele e') :
    e = e' := by
  obtain ⟨⟨p, hp, hpp, rfl⟩, hle⟩ := h
  obtain ⟨⟨q, hq, hqp, rfl⟩, hle'⟩ := h'
  exact le_antisymm (hle q hq hqp) (hle' p hp hpp)

/-- C106 (functional).  The formation energies, the hulls and all that is saved are the same for all tables of atomic
energies. -/
theorem C106_functional (s : Setup St F K) (hpinv : IsPinv 1 (s.pinv 1)) (table table' : Dict String K) (a a' : String → K)
    (v : St → K) (names : List (List Char)) (vaspruns : List F) (rows : List (St × K))
    (hread : Readable s table a v vaspruns rows) (hread' : Readable s table' a' v vaspruns rows)
    (hends : HasEnds s a v rows) (hends' : HasEnds s a' v rows) :
    calcFormation s (.ok table) (.ok names) false vaspruns = calcFormation s (.ok table') (.ok names) false vaspruns := by
  obtain ⟨ed, em, l1, l2, d, h1, h2, h3, h4, h5, h6, h7⟩ := C106_formation s hpinv table a v names vaspruns rows hread hends
  obtain ⟨ed', em', l1', l2', d', h1', h2', h3', h4', h5', h6', h7'⟩ :=
    C106_formation s hpinv table' a' v names vaspruns rows hread' hends'
  have e1 : ed = ed' := funext fun i => lowest_unique (l1 i) (l1' i)
  have e2 : em = em' := funext fun i => lowest_unique (l2 i) (l2' i)
  subst e1 e2
  rw [h1, h1']
  obtain ⟨n, x, xh, y, yh, g⟩ := d
  obtain ⟨n', x', xh', y', yh', g'⟩ := d'
  simp only at h2 h3 h4 h5 h6 h7 h2' h3' h4' h5' h6' h7'
  subst h2 h3 h4 h5 h2' h3' h4' h5'
  rw [h6] at h6'
  rw [h7] at h7'
  cases h6'
  cases h7'
  rfl

/-- C106 (pure elements).  With the lowest energies of the pure structures, a pure structure has a formation energy that is
not negative and the composition of its element; for each element there is one with formation energy zero. -/
theorem C106_pure (elements : List String) (hnd : elements.Nodup) (l : List (Cand × K))
    (ht : ∀ p ∈ l, Tidy elements p.1) (ends : Fin elements.length → K) (h : ∀ i, LowestPure l elements[i] (ends i))
    (i : Fin elements.length) :
    (∀ p ∈ l, PureOf elements[i] p.1 → 0 ≤ (formationRow elements ends p.1 p.2).2 ∧
      (formationRow elements ends p.1 p.2).1 = fun j => if j = i then 1 else 0) ∧
    ∃ p ∈ l, PureOf elements[i] p.1 ∧ (formationRow elements ends p.1 p.2).2 = 0 := by
  have hn : ∀ p ∈ l, (0 : K) < (p.1.elements.length : K) := fun p hp => by
    rw [Nat.cast_pos, List.length_pos_iff]; exact (ht p hp).1
  have hc : ∀ p ∈ l, PureOf elements[i] p.1 → ∀ j : Fin elements.length,
      (p.1.elements.count elements[j] : K) = if j = i then (p.1.elements.length : K) else 0 := by
    intro p hp hpp j
    by_cases hj : j = i
    · subst hj
      rw [if_pos rfl, List.count_eq_length.2 fun e he => (hpp e he).symm]
    · rw [if_neg hj, List.count_eq_zero_of_not_mem, Nat.cast_zero]
      intro hm
      apply hj
      have := hpp _ hm
      exact Fin.ext ((List.Nodup.getElem_inj_iff hnd).1 this)
  have hs : ∀ p ∈ l, PureOf elements[i] p.1 →
      (formationRow elements ends p.1 p.2).2 = p.2 / (p.1.elements.length : K) - ends i := by
    intro p hp hpp
    unfold formationRow
    simp only [hc p hp hpp, ite_mul, zero_mul, Finset.sum_ite_eq', Finset.mem_univ, if_true]
    rw [sub_div, mul_div_cancel_left₀ _ (hn p hp).ne']
  refine ⟨fun p hp hpp => ⟨?_, ?_⟩, ?_⟩
  · rw [hs p hp hpp, sub_nonneg]
    exact (h i).2 p hp hpp
  · funext j
    unfold formationRow
    simp only [hc p hp hpp]
    split
    · exact div_self (hn p hp).ne'
    · exact zero_div _
  · obtain ⟨p, hp, hpp, he⟩ := (h i).1
    exact ⟨p, hp, hpp, by rw [hs p hp hpp, ← he, sub_self]⟩

/-- C106 (optimized structures).  With geometry optimization there is a further row for every structure whose
optimization does not raise an exception, in their order, with the end members of the structures as they were given.  If
none raises an exception the rows are beside the names of their structures. -/
theorem C106_optimized (s : Setup St F K) (hpinv : IsPinv 1 (s.pinv 1)) (table : Dict String K) (a : String → K) (v : St → K)
    (names : List (List Char)) (vaspruns : List F) (rows : List (St × K)) (hread : Readable s table a v vaspruns rows)
    (hends : HasEnds s a v rows)
    (hopt : ∀ r ∈ rows, ∀ o, s.opt r.1 = .ok o → ∀ e ∈ (s.cand o.1).elements, e ∈ s.elements) :
    ∃ em : Fin s.elements.length → K,
      (∀ i, LowestPure (rows.map fun r => (s.cand r.1, v r.1)) s.elements[i] (em i)) ∧
      ∃ d go h, calcFormation s (.ok table) (.ok names) true vaspruns = .ok (some d) ∧ d.names = names ∧
        d.mlp = rows.map (fun r => formationRow s.elements em (s.cand r.1) (v r.1)) ∧ d.go = some (go, h) ∧
        go = (rows.filterMap fun r => (s.opt r.1).toOption).map (fun o => formationRow s.elements em (s.cand o.1) o.2) ∧
        ((∀ r ∈ rows, ∃ o, s.opt r.1 = .ok o) → ∀ (k : ℕ) name row, (labelled names go)[k]? = some (name, row) →
          names[k]? = some name ∧ ∃ r o, rows[k]? = some r ∧ s.opt r.1 = .ok o ∧
            row = formationRow s.elements em (s.cand o.1) o.2) := by
  obtain ⟨hne, hp, ht, ha, hv⟩ := hread
  obtain ⟨hel, hnd, hb, hb', hh⟩ := hends
  have hel' : ∀ r ∈ rows, ∀ e ∈ (s.cand r.1).elements, e ∈ s.elements := fun r hr => (ht r hr).2.1
  obtain ⟨ed, c1, g1⟩ := ends_eq s rows (fun r => r.2 - ((s.cand r.1).elements.map a).sum) ht hb
  obtain ⟨em, c2, g2⟩ := ends_eq s rows (fun r => v r.1) ht hb'
  obtain ⟨hd, e1⟩ := hh (rows.map (fun r => formationRow s.elements ed (s.cand r.1) (r.2 - ((s.cand r.1).elements.map a).sum)))
  obtain ⟨hm, e2⟩ := hh (rows.map (fun r => formationRow s.elements em (s.cand r.1) (v r.1)))
  obtain ⟨hg, e3⟩ := hh ((rows.filterMap fun r => (s.opt r.1).toOption).map (fun o => formationRow s.elements em (s.cand o.1) o.2))
  refine ⟨em, g2, ⟨names, rows.map (fun r => formationRow s.elements ed (s.cand r.1) (r.2 - ((s.cand r.1).elements.map a).sum)),
    hd, rows.map (fun r => formationRow s.elements em (s.cand r.1) (v r.1)), hm,
    some ((rows.filterMap fun r => (s.opt r.1).toOption).map (fun o => formationRow s.elements em (s.cand o.1) o.2), hg)⟩,
    (rows.filterMap fun r => (s.opt r.1).toOption).map (fun o => formationRow s.elements em (s.cand o.1) o.2), hg,
    ?_, rfl, rfl, rfl, rfl, ?_⟩
  · unfold calcFormation
    rw [if_neg hel]
    unfold formationData
    rw [evalEnergies_eq s table a v vaspruns rows hne hp ha hv]
    simp only [bind, Except.bind, c1, c2]
    rw [rows_eq s hnd hpinv ed rows _ hel']
    simp only [e1]
    rw [rows_eq s hnd hpinv em rows _ hel']
    simp only [e2, optimizedPart, optimizedRows, bind, Except.bind]
    have hf : (rows.map (·.1)).filterMap (fun st => (s.opt st).toOption) = rows.filterMap fun r => (s.opt r.1).toOption := by
      rw [List.filterMap_map]; rfl
    rw [hf, rows_eq s hnd hpinv em _ (fun o => o.2) ?_]
    · simp only [e3, pure, Except.pure, Except.map]
    · intro o ho
      obtain ⟨r, hr, hro⟩ := List.mem_filterMap.1 ho
      cases hc : s.opt r.1 with
      | error e => rw [hc] at hro; cases hro
      | ok o' =>
        rw [hc] at hro
        cases hro
        exact hopt r hr o hc
  · intro hall k name row hk
    unfold labelled at hk
    rw [List.getElem?_zip_eq_some] at hk
    refine ⟨hk.1, ?_⟩
    have hk2 := hk.2
    clear hk hv ha ht hb hb' hel' c1 g1 c2 g2 e1 e2 e3 hopt hp
    rw [List.getElem?_map] at hk2
    obtain ⟨o, ho, rfl⟩ := Option.map_eq_some_iff.1 hk2
    clear hk2
    induction rows generalizing k with
    | nil => simp at ho
    | cons r rows ih =>
      obtain ⟨o', ho'⟩ := hall r (by simp)
      rw [List.filterMap_cons] at ho
      simp only [ho', Except.toOption] at ho
      cases k with
      | zero =>
        simp only [List.getElem?_cons_zero, Option.some.injEq] at ho
        subst ho
        exact ⟨r, o', rfl, ho', rfl⟩
      | succ k =>
        simp only [List.getElem?_cons_succ] at ho ⊢
        exact ih (fun r hr => hall r (by simp [hr])) k ho

/-- C106 (structures on the hull).  With a name for every row, the list of structures on the hull has exactly the rows that
are close to a row of the hull, each with the name at its place. -/
theorem C106_hull {s : Setup St F K} (close : Row s → Row s → Bool) (names : List (List Char)) (all hull : List (Row s))
    (hl : all.length ≤ names.length) :
    ∃ res, equivalent close names all hull = .ok res ∧ ∀ row name, (row, name) ∈ res ↔
      ∃ i : ℕ, all[i]? = some row ∧ names[i]? = some name ∧ ∃ de ∈ hull, close row de = true := by
  have hok : ∀ p ∈ (hull.flatMap fun de => (all.zipIdx.filter fun p => close p.1 de)),
      (do let n ← orErr .indexError names[p.2]?; return (p.1, n) : Except Err (Row s × List Char)) =
        .ok (p.1, names[p.2]?.getD []) := by
    intro p hp
    obtain ⟨de, -, hp⟩ := List.mem_flatMap.1 hp
    have := List.mem_zipIdx' (List.mem_of_mem_filter hp)
    rw [List.getElem?_eq_getElem (by omega)]
    rfl
  refine ⟨_, mapM_value _ (fun p : Row s × ℕ => (p.1, names[p.2]?.getD [])) _ hok, fun row name => ?_⟩
  rw [List.mem_map]
  constructor
  · rintro ⟨p, hp, he⟩
    obtain ⟨de, hde, hp⟩ := List.mem_flatMap.1 hp
    obtain ⟨hm, hc⟩ := List.mem_filter.1 hp
    have h1 := List.mem_zipIdx' hm
    have h2 : names[p.2]? = some (names[p.2]'(by omega)) := List.getElem?_eq_getElem (by omega)
    simp only [h2, Option.getD_some, Prod.mk.injEq] at he
    refine ⟨p.2, ?_, ?_, de, hde, ?_⟩
    · rw [← he.1]; exact List.mk_mem_zipIdx_iff_getElem?.1 hm
    · rw [h2, he.2]
    · rw [← he.1]; exact hc
  · rintro ⟨i, h1, h2, de, hde, hc⟩
    refine ⟨(row, i), List.mem_flatMap.2 ⟨de, hde, List.mem_filter.2 ⟨?_, hc⟩⟩, by rw [h2]; rfl⟩
    exact List.mk_mem_zipIdx_iff_getElem?.2 h1

end

/-! ## What fails -/

/-- A setup to try the statements with: a structure is its elements and an energy; the optimization of a structure with
two elements fails. -/
def demo : Setup (List String × ℚ) ((List String × ℚ) × ℚ) ℚ where
  elements := ["Ag", "Au"]
  parse := fun l => .ok l
  cand := fun st => ⟨st.1.eraseDups.map fun e => st.1.count e, st.1⟩
  pot := fun st => .ok st.2
  opt := fun st => if 1 < st.1.eraseDups.length then .error .runtimeError else .ok (st, st.2)
  pinv := fun _ => 1
  hull := fun l => .ok l
  big := 10000000000

/-- The files of the example: silver, an alloy and gold. -/
def demoFiles : List ((List String × ℚ) × ℚ) :=
  [((["Ag", "Ag"], -4), -6), ((["Ag", "Au"], -6), -7), ((["Au"], -3), -4)]

/-- C106 fails: after an optimization that raises an exception the rows are beside the names of other structures: the row
of pure gold has the name of the alloy. -/
theorem C106_names_violation :
    ((calcFormation demo (.ok [("Ag", -1), ("Au", -2)]) (.ok ["Ag2".toList, "AgAu".toList, "Au".toList]) true demoFiles).toOption.map
      fun d => d.map fun d => d.go.map fun g => (labelled d.names g.1).map fun x => (x.1, x.2.1 ⟨0, by decide⟩, x.2.1 ⟨1, by decide⟩)) =
      some (some (some [("Ag2".toList, 1, 0), ("AgAu".toList, 0, 1)])) := by
  decide +kernel

/-- C106 fails: the comparison is sorted by text: with the texts that Python gives, the higher one of two negative energies
comes first, and -10.5 comes before -2.5. -/
theorem C106_order_violation (text : ℚ → List Char) (h1 : text (-3 / 2) = "-1.5".toList) (h2 : text (-5 / 2) = "-2.5".toList)
    (h3 : text (-21 / 2) = "-10.5".toList) :
    textLe (text (-3 / 2)) (text (-5 / 2)) = true ∧ textLe (text (-5 / 2)) (text (-3 / 2)) = false ∧
    textLe (text (-21 / 2)) (text (-5 / 2)) = true ∧
    (comparison (St := ℕ) id text ⟨[0, 0], [1, 1], [-5 / 2, -3 / 2], [-5 / 2, -3 / 2]⟩ ["a".toList, "b".toList]).map
      (fun l => l.map fun x => x.2.2) = .ok ["b".toList, "a".toList] := by
  rw [h1, h2, h3]
  refine ⟨by decide, by decide, by decide, ?_⟩
  have hd : perAtom [-5 / 2, -3 / 2] [1, 1] = ([-5 / 2, -3 / 2] : List ℚ) := by simp [perAtom]
  unfold comparison
  simp only [hd, List.map_cons, List.map_nil, id, h1, h2]
  simp [List.mergeSort, List.MergeSort.Internal.splitInTwo, List.merge, textLe, orErr, Except.map, bind, Except.bind, pure, Except.pure]

/-! The hypotheses are met. -/

theorem demo_pure {l : List String} (ele : String) (h : l.all (· = ele) = true) : ∀ e ∈ l, e = ele := by
  simpa using h

example : Readable demo [("Ag", -1), ("Au", -2)] (fun e => if e = "Ag" then -1 else -2) (fun st => st.2) demoFiles demoFiles where
  files := by decide
  parse := rfl
  tidy := by
    intro r hr
    simp only [demoFiles, List.mem_cons, List.not_mem_nil, or_false] at hr
    rcases hr with rfl | rfl | rfl
    · exact ⟨by decide, by decide, by decide, iff_of_true (by decide) ⟨"Ag", demo_pure _ (by decide)⟩⟩
    · refine ⟨by decide, by decide, by decide, iff_of_false (by decide) ?_⟩
      rintro ⟨ele, h⟩
      have h1 := h "Ag" (by decide)
      have h2 := h "Au" (by decide)
      rw [← h1] at h2
      exact absurd h2 (by decide)
    · exact ⟨by decide, by decide, by decide, iff_of_true (by decide) ⟨"Au", demo_pure _ (by decide)⟩⟩
  atomic := by decide
  pot := fun _ _ => rfl

example : HasEnds demo (fun e => if e = "Ag" then -1 else -2) (fun st => st.2) demoFiles where
  several := by decide
  nodup := by decide
  dft := by
    intro ele he
    simp only [demo, List.mem_cons, List.not_mem_nil, or_false] at he
    rcases he with rfl | rfl
    · exact ⟨_, List.mem_cons_self, demo_pure _ (by decide), by decide +kernel⟩
    · exact ⟨_, List.mem_cons_of_mem _ (List.mem_cons_of_mem _ List.mem_cons_self), demo_pure _ (by decide), by decide +kernel⟩
  mlp := by
    intro ele he
    simp only [demo, List.mem_cons, List.not_mem_nil, or_false] at he
    rcases he with rfl | rfl
    · exact ⟨_, List.mem_cons_self, demo_pure _ (by decide), by decide +kernel⟩
    · exact ⟨_, List.mem_cons_of_mem _ (List.mem_cons_of_mem _ List.mem_cons_self), demo_pure _ (by decide), by decide +kernel⟩
  hull := fun l => ⟨l, rfl⟩

example : IsPinv 1 (demo.pinv 1) := by
  change IsPinv (1 : Matrix (Fin 2) (Fin 2) ℚ) 1
  simp [IsPinv]

example : ((calcFormation demo (.ok [("Ag", -1), ("Au", -2)]) (.ok ["Ag2".toList, "AgAu".toList, "Au".toList]) false demoFiles).toOption.map
    fun d => d.map fun d => (d.dft.map fun x => x.2, d.mlp.map fun x => x.2)) = some (some ([0, 0, 0], [0, -1 / 2, 0])) := by
  decide +kernel

/-- C106 (names).  Without IDs the names are those of the files.  With IDs, there is one name for each ID, made of the ID
and its structure type; an ID that is not in the table is an error. -/
theorem C106_structure_names (show' : F → List Char) (types : Dict (List Char) (List Char)) (vaspruns : List F)
    (ids : List (List Char)) :
    structureNames show' types vaspruns none = .ok (vaspruns.map show') ∧
    (∀ ty : List Char → List Char, (∀ i ∈ ids, types.get? i = some (ty i)) →
      structureNames show' types vaspruns (some ids) =
        .ok (ids.map fun i => "ICSD-".toList ++ i ++ "-[".toList ++ ty i ++ "]".toList)) ∧
    ((∃ i ∈ ids, types.get? i = none) → structureNames show' types vaspruns (some ids) = .error .keyError) := by
  refine ⟨rfl, fun ty h => ?_, ?_⟩
  · refine mapM_value _ (fun i => "ICSD-".toList ++ i ++ "-[".toList ++ ty i ++ "]".toList) ids fun i hi => ?_
    rw [h i hi]; rfl
  · intro h
    change ids.mapM _ = _
    induction ids with
    | nil => obtain ⟨i, hi, _⟩ := h; simp at hi
    | cons j ids ih =>
      rw [List.mapM_cons]
      cases hj : types.get? j with
      | none => rfl
      | some t =>
        have h2 : ∃ i ∈ ids, types.get? i = none := by
          obtain ⟨i, hi, hn⟩ := h
          rcases List.mem_cons.1 hi with rfl | hi
          · rw [hj] at hn; cases hn
          · exact ⟨i, hi, hn⟩
        rw [ih h2]; rfl

example : structureNames (F := ℕ) (fun _ => []) [("52914".toList, "Cu".toList)] [1] (some ["52914".toList]) =
    .ok ["ICSD-52914-[Cu]".toList] := by decide +kernel

end Verif.AutoDist
