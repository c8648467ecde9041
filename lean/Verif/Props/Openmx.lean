import Verif.Spec.Openmx
import Verif.Props.Vasprun

/-!
# Results of OpenMX

The steps that are read from files are exactly those that the files hold.
-/

namespace Verif.Openmx
open Verif.Spec
open Verif.Infile (PStr splitWs contains)
open Verif.Vasprun (mapM_iff)

/-! ## Types -/

theorem leStr_iff : ∀ {a b : PStr}, leStr a b = true ↔ a ≤ b
  | [], [] => by simp [leStr]
  | [], b :: bs => by
    simp only [leStr, true_iff]
    exact le_of_lt (List.Lex.nil)
  | a :: as, [] => by
    simp only [leStr, Bool.false_eq_true, false_iff, not_le]
    exact List.Lex.nil
  | a :: as, b :: bs => by
    simp only [leStr]
    by_cases h : a < b
    · simp only [h, if_true, true_iff]
      exact le_of_lt (List.Lex.rel h)
    · by_cases h2 : a = b
      · subst h2
        simp only [h, if_false, if_true, leStr_iff]
        constructor
        · exact List.cons_le_cons a
        · intro h3
          rcases lt_or_eq_of_le h3 with h3 | h3
          · cases h3 with
            | rel h4 => exact absurd h4 h
            | cons h4 => exact le_of_lt h4
          · rw [(List.cons.inj h3).2]
      · simp only [h, h2, if_false, Bool.false_eq_true, false_iff, not_le]
        exact List.Lex.rel (lt_of_le_of_ne (not_lt.mp h) (Ne.symm h2))

theorem unique_eq (l : List PStr) : unique l = l.dedup.insertionSort (· ≤ ·) := by
  unfold unique
  simp only [leStr_iff]

theorem unique_sorted (l : List PStr) : (unique l).Pairwise (· < ·) := by
  have h1 : (unique l).Pairwise (· ≤ ·) := by rw [unique_eq]; exact List.pairwise_insertionSort _ _
  have h2 : (unique l).Nodup := (List.perm_insertionSort _ _).nodup_iff.mpr (List.nodup_dedup l)
  exact (h1.and h2).imp fun h => lt_of_le_of_ne h.1 h.2

theorem mem_unique {l : List PStr} {e : PStr} : e ∈ unique l ↔ e ∈ l := by
  unfold unique
  rw [List.mem_insertionSort, List.mem_dedup]

theorem sorted_eq {a b : List PStr} (ha : a.Pairwise (· < ·)) (hb : b.Pairwise (· < ·)) (h : ∀ e, e ∈ a ↔ e ∈ b) : a = b := by
  refine List.Perm.eq_of_pairwise (le := (· ≤ ·)) (fun x y _ _ h1 h2 => le_antisymm h1 h2) (ha.imp le_of_lt) (hb.imp le_of_lt) ?_
  exact (List.perm_ext_iff_of_nodup (ha.imp ne_of_lt) (hb.imp ne_of_lt)).mpr h

theorem foldl_types (els : List PStr) : ∀ (u : List (PStr × ℕ)) (ts : List ℕ), ts.length = els.length →
    u.foldl (fun ts p => List.zipWith (fun e t => if e = p.1 then p.2 else t) els ts) ts =
      List.zipWith (fun e t => u.foldl (fun t p => if e = p.1 then p.2 else t) t) els ts
  | [], ts, h => by
    simp only [List.foldl_nil]
    apply List.ext_getElem
    · simp [h]
    · intro i h1 h2
      simp
  | p :: u, ts, h => by
    simp only [List.foldl_cons]
    rw [foldl_types els u _ (by simp [h])]
    apply List.ext_getElem
    · simp
    · intro i h1 h2
      simp

theorem foldl_pos {e : PStr} : ∀ (u : List PStr) (k t : ℕ), e ∈ u → u.Nodup →
    u[(u.zipIdx k).foldl (fun t p => if e = p.1 then p.2 else t) t - k]? = some e ∧
      k ≤ (u.zipIdx k).foldl (fun t p => if e = p.1 then p.2 else t) t := by
  have keep : ∀ (u : List PStr) (k t : ℕ), e ∉ u → (u.zipIdx k).foldl (fun t p => if e = p.1 then p.2 else t) t = t := by
    intro u
    induction u with
    | nil => intro k t _; rfl
    | cons x u ih =>
      intro k t h
      rw [List.mem_cons, not_or] at h
      simp only [List.zipIdx_cons, List.foldl_cons]
      rw [if_neg h.1, ih _ _ h.2]
  intro u
  induction u with
  | nil => intro k t h; cases h
  | cons x u ih =>
    intro k t h hn
    simp only [List.zipIdx_cons, List.foldl_cons]
    rw [List.nodup_cons] at hn
    by_cases hx : e = x
    · subst hx
      simp only [if_true]
      rw [keep u _ _ hn.1]
      simp
    · rw [if_neg hx]
      rcases List.mem_cons.mp h with h | h
      · exact absurd h hx
      · obtain ⟨h1, h2⟩ := ih (k + 1) t h hn.2
        refine ⟨?_, by omega⟩
        rw [show ∀ a : ℕ, k + 1 ≤ a → a - k = a - (k + 1) + 1 from fun a ha => by omega]
        · rw [List.getElem?_cons_succ]
          exact h1
        · exact h2

theorem typesOf_spec (els : List PStr) : List.Forall₂ (fun e (t : ℕ) => (unique els)[t]? = some e) els (typesOf els) := by
  unfold typesOf
  rw [foldl_types _ _ _ (by simp), List.forall₂_iff_get]
  refine ⟨by simp, ?_⟩
  intro i h1 h2
  simp only [List.get_eq_getElem, List.getElem_zipWith, List.getElem_replicate]
  have := foldl_pos (e := els[i]) (unique els) 0 0 (mem_unique.mpr (List.getElem_mem h1)) ((unique_sorted els).imp ne_of_lt)
  simpa using this.1

theorem types_iff {els : List PStr} {ts ns : List ℕ} : TypesOf els ts ns ↔ typesOf els = ts ∧ nAtomsOf els = ns := by
  constructor
  · rintro ⟨order, h1, h2, h3, h4⟩
    have : order = unique els := sorted_eq h1 (unique_sorted els) fun e => by rw [h2, mem_unique]
    subst this
    constructor
    · have h5 := typesOf_spec els
      have hn : (unique els).Nodup := (unique_sorted els).imp ne_of_lt
      have aux : ∀ {l : List PStr} {a b : List ℕ}, List.Forall₂ (fun e (t : ℕ) => (unique els)[t]? = some e) l a →
          List.Forall₂ (fun e (t : ℕ) => (unique els)[t]? = some e) l b → a = b := by
        intro l a b ha
        induction ha generalizing b with
        | nil => intro hb; cases hb; rfl
        | cons h _ ih =>
          intro hb
          cases hb with
          | cons h' t' =>
            rw [ih t']
            congr 1
            obtain ⟨l1, e1⟩ := List.getElem?_eq_some_iff.mp h
            obtain ⟨l2, e2⟩ := List.getElem?_eq_some_iff.mp h'
            exact (List.Nodup.getElem_inj_iff hn).mp (e1.trans e2.symm)
      exact aux h5 h3
    · unfold nAtomsOf
      clear h1 h2 h3
      generalize unique els = u at h4
      induction h4 with
      | nil => rfl
      | cons h _ ih => simp [h, ih]
  · rintro ⟨rfl, rfl⟩
    refine ⟨unique els, unique_sorted els, fun e => mem_unique, typesOf_spec els, ?_⟩
    unfold nAtomsOf
    rw [List.forall₂_map_right_iff, List.forall₂_same]
    intro _ _
    rfl

theorem types_length (els : List PStr) : (typesOf els).length = els.length := (typesOf_spec els).length_eq.symm

theorem nAtoms_sum (els : List PStr) : (nAtomsOf els).sum = els.length := by
  unfold nAtomsOf
  have hn : (unique els).Nodup := (unique_sorted els).imp ne_of_lt
  have aux : ∀ (u l : List PStr), u.Nodup → (∀ e ∈ l, e ∈ u) → (u.map fun e => l.count e).sum = l.length := by
    intro u l hu
    induction l with
    | nil => intro _; simp
    | cons x l ih =>
      intro h
      have h1 := ih fun e he => h e (List.mem_cons_of_mem _ he)
      have h2 : (u.map fun e => (x :: l).count e) = u.map fun e => l.count e + if x = e then 1 else 0 := by
        apply List.map_congr_left
        intro e _
        rw [List.count_cons]
        simp
      rw [h2, List.sum_map_add, h1, List.length_cons]
      congr 1
      have hx := h x List.mem_cons_self
      clear h1 h2 h ih
      induction u with
      | nil => cases hx
      | cons y u ihu =>
        rw [List.nodup_cons] at hu
        rw [List.map_cons, List.sum_cons]
        by_cases hxy : x = y
        · subst hxy
          rw [if_pos rfl]
          have : (u.map fun e => if x = e then 1 else 0) = u.map fun _ => 0 := by
            apply List.map_congr_left
            intro e he
            rw [if_neg]
            rintro rfl
            exact hu.1 he
          rw [this]
          simp
        · rw [if_neg hxy, Nat.zero_add]
          rcases List.mem_cons.mp hx with h | h
          · exact absurd h hxy
          · exact ihu hu.2 h
  exact aux _ _ hn fun e he => mem_unique.mpr he

/-! ## One step -/

theorem solve_iff {a : M3 ℚ} (h : a.det ≠ 0) (c p : V3 ℚ) : solve a c = p ↔ mulM3 a p = c := by
  obtain ⟨⟨a1, a2, a3⟩, ⟨b1, b2, b3⟩, ⟨c1, c2, c3⟩⟩ := a
  obtain ⟨x, y, z⟩ := c
  obtain ⟨p, q, r⟩ := p
  simp only [M3.det] at h
  simp only [solve, mulM3, V3.mk.injEq, M3.det]
  constructor
  · rintro ⟨rfl, rfl, rfl⟩
    generalize hD : a1 * (b2 * c3 - b3 * c2) - a2 * (b1 * c3 - b3 * c1) + a3 * (b1 * c2 - b2 * c1) = D at h
    refine ⟨?_, ?_, ?_⟩ <;> field_simp <;> rw [← hD] <;> ring
  · rintro ⟨rfl, rfl, rfl⟩
    refine ⟨?_, ?_, ?_⟩ <;> rw [div_eq_iff h] <;> ring

theorem numbers_iff {num : Num} {ws : List PStr} {qs : List ℚ} : ws.mapM num.float = .ok qs ↔ Numbers num ws qs := mapM_iff

theorem vec_iff {num : Num} {ws : List PStr} {v : V3 ℚ} :
    (∃ l, ws.mapM num.float = .ok l ∧ vec l = .ok v) ↔ Numbers num ws [v.x, v.y, v.z] := by
  rw [← numbers_iff]
  constructor
  · rintro ⟨l, h1, h2⟩
    rw [h1]
    match l, h2 with
    | [a, b, c], h2 =>
      simp only [vec, Except.ok.injEq] at h2
      subst h2
      rfl
  · intro h
    exact ⟨_, h, rfl⟩

theorem atom_iff {num : Num} {l : PStr} {a : PStr × V3 ℚ × V3 ℚ} :
    atom num l = .ok a ↔ AtomLine num l a.1 a.2.1 a.2.2 := by
  obtain ⟨e, p, f⟩ := a
  unfold AtomLine atom
  change _ ↔ ∃ rest, words num l = e :: rest ∧ _
  rcases hw : words num l with _ | ⟨e', rest⟩
  · simp [orErr, bind, Except.bind]
  · simp only [← vec_iff, List.cons.injEq]
    simp only [orErr, bind, Except.bind, List.getElem?_cons_zero, List.drop_succ_cons, List.drop_zero]
    cases h1 : (List.take 3 rest).mapM num.float with
    | error e => simp [h1]
    | ok p' =>
      cases h2 : (List.take 3 (List.drop 3 rest)).mapM num.float with
      | error e => simp [h2]
      | ok f' =>
        cases h3 : vec p' with
        | error e => simp [h1, h3]
        | ok p'' =>
          cases h4 : vec f' with
          | error e => simp [h2, h3, h4]
          | ok f'' =>
            simp only [h3, h4, pure, Except.pure, Except.ok.injEq, Prod.mk.injEq]
            constructor
            · rintro ⟨rfl, rfl, rfl⟩
              exact ⟨rest, ⟨rfl, rfl⟩, ⟨p', h1, h3⟩, f', h2, h4⟩
            · rintro ⟨_, ⟨rfl, rfl⟩, ⟨l1, q1, q2⟩, l2, q3, q4⟩
              rw [h1, Except.ok.injEq] at q1
              rw [h2, Except.ok.injEq] at q3
              subst q1 q3
              rw [h3, Except.ok.injEq] at q2
              rw [h4, Except.ok.injEq] at q4
              exact ⟨rfl, q2, q4⟩

theorem axis_iff {num : Num} {ws : List PStr} {a : M3 ℚ} :
    (∃ l, ws.mapM num.float = .ok l ∧ axisOf l = .ok a) ↔
      Numbers num ws [a.r0.x, a.r1.x, a.r2.x, a.r0.y, a.r1.y, a.r2.y, a.r0.z, a.r1.z, a.r2.z] := by
  rw [← numbers_iff]
  constructor
  · rintro ⟨l, h1, h2⟩
    rw [h1]
    unfold axisOf at h2
    split at h2
    · simp only [Except.ok.injEq] at h2
      subst h2
      rfl
    · cases h2
  · intro h
    exact ⟨_, h, rfl⟩

theorem atoms_iff {num : Num} : ∀ {n : ℕ} {ls : List PStr} {as : List (PStr × V3 ℚ × V3 ℚ)} {rest : List PStr},
    atoms num n ls = .ok (as, rest) ↔
      ∃ b, ls = b ++ rest ∧ b.length = n ∧ List.Forall₂ (fun l a => AtomLine num l a.1 a.2.1 a.2.2) b as
  | 0, ls, as, rest => by
    simp only [atoms, Except.ok.injEq, Prod.mk.injEq]
    constructor
    · rintro ⟨rfl, rfl⟩
      exact ⟨[], rfl, rfl, .nil⟩
    · rintro ⟨b, rfl, h, h2⟩
      have := List.length_eq_zero_iff.mp h
      subst this
      cases h2
      exact ⟨rfl, rfl⟩
  | n + 1, [], as, rest => by
    simp only [atoms, reduceCtorEq, false_iff]
    rintro ⟨b, h, h2, _⟩
    have := congrArg List.length h
    simp only [List.length_nil, List.length_append] at this
    omega
  | n + 1, l :: ls, as, rest => by
    simp only [atoms, bind, Except.bind]
    constructor
    · intro h
      cases h1 : atom num l with
      | error e => simp [h1] at h
      | ok a =>
        cases h2 : atoms num n ls with
        | error e => simp [h1, h2] at h
        | ok r =>
          obtain ⟨r1, r2⟩ := r
          simp only [h1, h2, pure, Except.pure, Except.ok.injEq, Prod.mk.injEq] at h
          obtain ⟨rfl, rfl⟩ := h
          obtain ⟨b, rfl, hb, hf⟩ := atoms_iff.mp h2
          exact ⟨l :: b, rfl, by simp [hb], .cons (atom_iff.mp h1) hf⟩
    · rintro ⟨b, hb, hl, hf⟩
      cases hf with
      | nil => simp at hl
      | cons h1 h2 =>
        simp only [List.cons_append, List.cons.injEq] at hb
        obtain ⟨rfl, rfl⟩ := hb
        rw [atom_iff.mpr h1, atoms_iff.mpr ⟨_, rfl, by simpa using hl, h2⟩]
        rfl

/-- The structure and the forces that belong to atoms. -/
def RecordOf (as : List (PStr × V3 ℚ × V3 ℚ)) (r : Rec) : Prop :=
  r.structure_.axis.det ≠ 0 ∧ r.structure_.volume = r.structure_.axis.det ∧ r.structure_.name = none ∧
    r.structure_.elements = as.map (fun a => String.ofList a.1) ∧
    List.Forall₂ (fun a p => mulM3 r.structure_.axis p = a.2.1) as r.structure_.positions ∧
    r.forces = as.map (fun a => ⟨a.2.2.x * (27211386245981 / 529177210544), a.2.2.y * (27211386245981 / 529177210544),
      a.2.2.z * (27211386245981 / 529177210544)⟩) ∧
    TypesOf (as.map fun a => a.1) r.structure_.types r.structure_.nAtoms

theorem positions_iff {a : M3 ℚ} (h : a.det ≠ 0) : ∀ {as : List (PStr × V3 ℚ × V3 ℚ)} {ps : List (V3 ℚ)},
    (as.map fun x => solve a x.2.1) = ps ↔ List.Forall₂ (fun x p => mulM3 a p = x.2.1) as ps := by
  intro as ps
  rw [Vasprun.map_eq_forall₂]
  simp only [solve_iff h]

theorem record_iff {axis : M3 ℚ} {e : ℚ} {as : List (PStr × V3 ℚ × V3 ℚ)} {r : Rec} :
    record axis e as = .ok r ↔ as ≠ [] ∧ r.structure_.axis = axis ∧ r.energy = e ∧ RecordOf as r := by
  unfold record
  have hu : hartree / bohr = 27211386245981 / 529177210544 := by unfold hartree bohr; norm_num
  by_cases h : as = [] ∨ axis.det = 0
  · simp only [h, if_true, reduceCtorEq, false_iff]
    rintro ⟨h1, rfl, _, h2, _⟩
    rcases h with h | h
    · exact h1 h
    · exact h2 h
  · rw [not_or] at h
    simp only [h.1, h.2, or_self, if_false]
    unfold Structure.mk' Structure.check
    simp only [List.length_map, types_length, nAtoms_sum, and_self, if_true, bind, Except.bind, pure, Except.pure,
      Except.ok.injEq]
    obtain ⟨⟨sa, sp, sn, se, stt, sv, sm⟩, re, rf⟩ := r
    unfold RecordOf
    simp only [Rec.mk.injEq, Structure.mk.injEq, types_iff]
    constructor
    · rintro ⟨⟨rfl, h1, h2, h3, h4, rfl, rfl⟩, rfl, rfl⟩
      refine ⟨h.1, rfl, rfl, h.2, rfl, rfl, ?_, (positions_iff h.2).mp h1, ?_, h4, h2⟩
      · rw [← h3, List.map_map]; rfl
      · simp only [hu]
    · rintro ⟨_, rfl, rfl, h1, rfl, rfl, h2, h3, h4, h5, h6⟩
      refine ⟨⟨rfl, (positions_iff h1).mpr h3, h6, ?_, h5, rfl, rfl⟩, rfl, ?_⟩
      · rw [h2, List.map_map]; rfl
      · rw [h4]; simp only [hu]

theorem tag_eq : tagTemperature = "Temperature".toList := by decide +kernel

theorem frame_iff {num : Num} {ls : List PStr} {r : Rec} {rest : List PStr} :
    frame num ls = .ok (r, rest) ↔ ∃ b, ls = b ++ rest ∧ OpenmxStep num b r := by
  match ls with
  | [] =>
    simp only [frame, reduceCtorEq, false_iff]
    rintro ⟨b, h, l0, l1, ls, _, _, _, rfl, _⟩
    cases h
  | [l] =>
    have h0 : ∀ x, frame num [l] ≠ .ok x := by
      intro x
      cases h : num.int l <;> simp [frame, h, bind, Except.bind]
    constructor
    · intro h
      exact absurd h (h0 _)
    · rintro ⟨b, h, l0, l1, ls, _, _, _, rfl, _⟩
      have := congrArg List.length h
      simp at this
  | l0 :: l1 :: ls =>
    simp only [frame, bind, Except.bind]
    constructor
    · intro h
      cases h1 : num.int l0 with
      | error e => simp [h1] at h
      | ok n =>
        cases h2 : (words num l1)[4]? with
        | none => simp [h1, h2, orErr] at h
        | some w =>
          cases h3 : num.float w with
          | error e => simp [h1, h2, h3, orErr] at h
          | ok e =>
            cases h4 : ((words num l1).drop (axisStart l1)).mapM num.float with
            | error e => simp [h1, h2, h3, h4, orErr] at h
            | ok ax =>
              cases h5 : axisOf ax with
              | error e => simp [h1, h2, h3, h4, h5, orErr] at h
              | ok axis =>
                cases h6 : atoms num n.toNat ls with
                | error e => simp [h1, h2, h3, h4, h5, h6, orErr] at h
                | ok q =>
                  obtain ⟨as, q2⟩ := q
                  cases h7 : record axis (e * hartree) as with
                  | error e => simp [h1, h2, h3, h4, h5, h6, h7, orErr] at h
                  | ok r' =>
                    simp only [h1, h2, h3, h4, h5, h6, h7, orErr, pure, Except.pure, Except.ok.injEq, Prod.mk.injEq] at h
                    obtain ⟨rfl, rfl⟩ := h
                    obtain ⟨b, rfl, hb, hf⟩ := atoms_iff.mp h6
                    obtain ⟨hne, ha, he, hd, hv, hn, h8, h9, h10, h11⟩ := record_iff.mp h7
                    have hpos : 0 < b.length := by
                      rw [hf.length_eq]
                      exact List.length_pos_iff.mpr hne
                    refine ⟨l0 :: l1 :: b, rfl, l0, l1, b, w, e, as, rfl, ?_, hpos, h2, h3, he, ?_, hd, hv, hn, hf, h8, h9,
                      h10, h11⟩
                    · rw [h1, hb]
                      congr 1
                      omega
                    · rw [ha, ← tag_eq]
                      exact axis_iff.mp ⟨ax, h4, h5⟩
    · rintro ⟨_, h, l0', l1', b, w, e, as, rfl, h1, hpos, h2, h3, he, hx, hd, hv, hn, hf, h8, h9, h10, h11⟩
      simp only [List.cons_append, List.cons.injEq] at h
      obtain ⟨rfl, rfl, rfl⟩ := h
      rw [← tag_eq] at hx
      obtain ⟨ax, h4, h5⟩ := axis_iff.mpr hx
      have h2' : (words num l1)[4]? = some w := h2
      have h4' : ((words num l1).drop (axisStart l1)).mapM num.float = .ok ax := h4
      have h6 : atoms num b.length (b ++ rest) = .ok (as, rest) := atoms_iff.mpr ⟨b, rfl, rfl, hf⟩
      have hne : as ≠ [] := by
        rw [← List.length_pos_iff, ← hf.length_eq]
        exact hpos
      have h7 : record r.structure_.axis (e * hartree) as = .ok r :=
        record_iff.mpr ⟨hne, rfl, he, hd, hv, hn, h8, h9, h10, h11⟩
      simp only [h1, h2', h3, h4', h5, orErr, Int.toNat_natCast, h6, h7, pure, Except.pure]

/-! ## Files -/

theorem step_length {num : Num} {b : List PStr} {r : Rec} (h : OpenmxStep num b r) : 0 < b.length := by
  obtain ⟨l0, l1, ls, _, _, _, rfl, _⟩ := h
  simp

theorem frames_iff {num : Num} : ∀ {fuel : ℕ} {ls : List PStr} {rs : List Rec}, ls.length ≤ fuel →
    (frames num fuel ls = .ok rs ↔ OpenmxFile num ls rs)
  | fuel, [], rs, _ => by
    have : frames num fuel [] = .ok [] := by cases fuel <;> rfl
    rw [this, Except.ok.injEq]
    constructor
    · rintro rfl
      exact ⟨[], rfl, .nil⟩
    · rintro ⟨blocks, h, hf⟩
      cases hf with
      | nil => rfl
      | cons h1 _ =>
        have := step_length h1
        have h2 := congrArg List.length h
        simp only [List.length_nil, List.flatten_cons, List.length_append] at h2
        omega
  | 0, _ :: _, _, h => by simp at h
  | fuel + 1, l :: ls, rs, h => by
    simp only [frames, bind, Except.bind]
    constructor
    · intro h1
      cases h2 : frame num (l :: ls) with
      | error e => simp [h2] at h1
      | ok r =>
        obtain ⟨r, rest⟩ := r
        cases h3 : frames num fuel rest with
        | error e => simp [h2, h3] at h1
        | ok rs' =>
          simp only [h2, h3, pure, Except.pure, Except.ok.injEq] at h1
          subst h1
          obtain ⟨b, hb, hs⟩ := frame_iff.mp h2
          have := step_length hs
          have hl := congrArg List.length hb
          simp only [List.length_append] at hl
          obtain ⟨blocks, rfl, hf⟩ := (frames_iff (by omega)).mp h3
          exact ⟨b :: blocks, hb, .cons hs hf⟩
    · rintro ⟨blocks, hb, hf⟩
      cases hf with
      | nil => cases hb
      | @cons b r blocks' rs' h1 h2 =>
        have := step_length h1
        have hl := congrArg List.length hb
        simp only [List.flatten_cons, List.length_append] at hl
        rw [frame_iff.mpr ⟨b, hb, h1⟩]
        have h3 : frames num fuel blocks'.flatten = .ok rs' := (frames_iff (by omega)).mpr ⟨blocks', rfl, h2⟩
        simp only [h3, pure, Except.pure]

/-- C85: a file is read, and `rs` is the result, exactly if the file consists of the lines of these steps. -/
theorem C85_file (num : Num) (lines : List PStr) (rs : List Rec) :
    parseSingle num lines = .ok rs ↔ OpenmxFile num lines rs := frames_iff le_rfl

/-- C85: structures, energies and forces of a list of files are those of the steps of the files, in order. -/
theorem C85_files (num : Num) (files : List (List PStr)) (a : List (Structure ℚ) × List ℚ × List (List (V3 ℚ))) :
    parseFiles num files = .ok a ↔ ∃ recs : List (List Rec), List.Forall₂ (OpenmxFile num) files recs ∧
      a.1 = recs.flatten.map (·.structure_) ∧ a.2.1 = recs.flatten.map (·.energy) ∧
      a.2.2 = recs.flatten.map (·.forces) := by
  have key : ∀ (files : List (List PStr)) (acc a : List (Structure ℚ) × List ℚ × List (List (V3 ℚ))),
      files.foldlM (fun acc lines => do
        let rs ← parseSingle num lines
        return (acc.1 ++ rs.map (·.structure_), acc.2.1 ++ rs.map (·.energy), acc.2.2 ++ rs.map (·.forces)) :
          _ → _ → Except Err _) acc = .ok a ↔
      ∃ recs : List (List Rec), List.Forall₂ (OpenmxFile num) files recs ∧
        a = (acc.1 ++ recs.flatten.map (·.structure_), acc.2.1 ++ recs.flatten.map (·.energy),
          acc.2.2 ++ recs.flatten.map (·.forces)) := by
    intro files
    induction files with
    | nil =>
      intro acc a
      simp only [List.foldlM_nil, pure, Except.pure, Except.ok.injEq]
      constructor
      · rintro rfl
        exact ⟨[], .nil, by simp⟩
      · rintro ⟨_, h, rfl⟩
        cases h
        simp
    | cons f fs ih =>
      intro acc a
      simp only [List.foldlM_cons, bind, Except.bind]
      constructor
      · intro h
        cases h1 : parseSingle num f with
        | error e => simp [h1] at h
        | ok rs =>
          simp only [h1, pure, Except.pure] at h
          obtain ⟨recs, hr, rfl⟩ := (ih _ _).mp h
          exact ⟨rs :: recs, .cons ((C85_file _ _ _).mp h1) hr, by simp⟩
      · rintro ⟨_, h, rfl⟩
        cases h with
        | cons h1 h2 =>
          rw [(C85_file _ _ _).mpr h1]
          exact (ih _ _).mpr ⟨_, h2, by simp⟩
  obtain ⟨a1, a2, a3⟩ := a
  unfold parseFiles
  rw [key]
  simp

/-- C85: the steps of a file are determined by its lines. -/
theorem C85_unique (num : Num) (lines : List PStr) (rs rs' : List Rec) (h : OpenmxFile num lines rs)
    (h' : OpenmxFile num lines rs') : rs = rs' := by
  have h1 := (C85_file _ _ _).mpr h
  rw [(C85_file _ _ _).mpr h', Except.ok.injEq] at h1
  exact h1.symm

/-- C85: a file followed by another is read as the steps of both. -/
theorem C85_append (num : Num) (a b : List PStr) (ra rb : List Rec) (ha : parseSingle num a = .ok ra)
    (hb : parseSingle num b = .ok rb) : parseSingle num (a ++ b) = .ok (ra ++ rb) := by
  rw [C85_file] at *
  obtain ⟨ba, rfl, fa⟩ := ha
  obtain ⟨bb, rfl, fb⟩ := hb
  exact ⟨ba ++ bb, by simp, List.rel_append fa fb⟩

/-- Finding: a file with a blank line at its end is not read at all. -/
theorem C85_blank_violation (num : Num) (lines : List PStr) (rs : List Rec) (blank : PStr) (h : OpenmxFile num lines rs)
    (hb : ∀ i, num.int blank ≠ .ok i) : ∃ e, parseSingle num (lines ++ [blank]) = .error e := by
  cases hp : parseSingle num (lines ++ [blank]) with
  | error e => exact ⟨e, rfl⟩
  | ok rs' =>
    exfalso
    obtain ⟨blocks, rfl, hf⟩ := h
    obtain ⟨blocks', hl, hf'⟩ := (C85_file _ _ _).mp hp
    clear hp
    induction hf generalizing blocks' rs' with
    | nil =>
      cases hf' with
      | nil => cases hl
      | cons h1 _ =>
        obtain ⟨l0, l1, ls, _, _, _, rfl, h2, _⟩ := h1
        simp only [List.flatten_nil, List.nil_append, List.flatten_cons, List.cons_append, List.cons.injEq] at hl
        rw [hl.1] at hb
        exact hb _ h2
    | @cons b r bs rs h1 _ ih =>
      cases hf' with
      | nil => 
        have := step_length h1
        have h2 := congrArg List.length hl
        simp only [List.flatten_cons, List.length_append, List.flatten_nil, List.length_nil] at h2
        omega
      | @cons b' r' bs' rs' h2 h3 =>
        have e1 := (frame_iff (rest := bs.flatten ++ [blank])).mpr ⟨b, rfl, h1⟩
        have e2 := (frame_iff (rest := bs'.flatten)).mpr ⟨b', rfl, h2⟩
        have e3 : b ++ (bs.flatten ++ [blank]) = b' ++ bs'.flatten := by simpa using hl
        rw [e3, e2, Except.ok.injEq, Prod.mk.injEq] at e1
        exact ih _ _ e1.2.symm h3

/-! ## Example -/

/-- Numbers of the example: the value of a digit, with a sign. -/
def exNum : Num where
  float := fun
    | ['-', c] => .ok (-((c.toNat : ℚ) - 48))
    | [c] => .ok ((c.toNat : ℚ) - 48)
    | _ => .error .valueError
  int := fun
    | [c] => .ok ((c.toNat : ℤ) - 48)
    | _ => .error .valueError
  ws := fun c => decide (c = ' ')

/-- Two steps, with and without a temperature. -/
def exLines : List PStr :=
  ["2", "time= 0 (fs) Energy= -1 (Hartree) Cell_Vectors= 2 0 0 0 2 0 1 0 2", "Si 1 0 0 1 0 0", "O 0 1 0 -1 0 0 7",
    "1", "time= 0 (fs) Energy= 3 (Hartree) Temperature= 0 (Given Temp.= 0) Cell_Vectors= 1 0 0 0 1 0 0 0 1",
    "Si 1 0 0 0 0 0"].map String.toList

example : (parseSingle exNum exLines).toOption.map (fun rs => (rs.map (·.energy), rs.map (·.structure_.types),
    rs.map (·.structure_.nAtoms))) =
    some ([-(27211386245981 / 1000000000000), 3 * (27211386245981 / 1000000000000)], [[1, 0], [0]], [[1, 1], [1]]) := by
  decide +kernel

example : (parseSingle exNum exLines).toOption.map (fun rs => rs.map (·.structure_.positions)) =
    some [[⟨1 / 2, 0, 0⟩, ⟨0, 1 / 2, 0⟩], [⟨1, 0, 0⟩]] := by decide +kernel

end Verif.Openmx
