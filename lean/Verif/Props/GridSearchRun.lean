import Verif.Props.GridSearch

/-!
# C83: the models listed
-/

namespace Verif.GridSearch
open Verif.Spec.GridSearch
open Verif.Infile (PStr Parsed Value)

theorem autoGaussians_mem (a : Args) (cutoffs : List ℚ) (c : ℚ) (n : ℤ) :
    (⟨c, n⟩ : GaussianAttrs) ∈ autoGaussians cutoffs a.nums ↔ Radial a cutoffs c n := by
  unfold autoGaussians Radial
  cases a.nums with
  | some ns =>
    simp only [List.mem_map, Prod.exists, List.mem_product, GaussianAttrs.mk.injEq]
    constructor
    · rintro ⟨x, y, h, rfl, rfl⟩; exact h
    · intro h; exact ⟨c, n, h, rfl, rfl⟩
  | none =>
    simp only [List.mem_map, Prod.exists, List.mem_product, GaussianAttrs.mk.injEq, nearest_iff,
      List.mem_cons, List.not_mem_nil, or_false]
    constructor
    · rintro ⟨x, y, ⟨h, hy⟩, rfl, rfl⟩
      refine ⟨h, ?_⟩
      rcases hy with rfl | rfl | rfl
      · left; rw [mul_one]
      · right; left; rfl
      · right; right; rfl
    · rintro ⟨h, h1 | h1 | h1⟩
      · exact ⟨c, 1, ⟨h, .inl rfl⟩, rfl, by rw [mul_one, h1]⟩
      · exact ⟨c, 5 / 4, ⟨h, .inr (.inl rfl)⟩, rfl, h1.symm⟩
      · exact ⟨c, 3 / 2, ⟨h, .inr (.inr rfl)⟩, rfl, h1.symm⟩

/-- What the grid of a request is. -/
structure GridOf (a : Args) (cutoffs : List ℚ) (g : Grid) : Prop where
  radial : g.radial = autoGaussians cutoffs a.nums
  maxps : g.maxps = a.maxps
  gtinv : g.gtinv = a.gtinv
  types : ∀ m, m ∈ pairTypes g ↔ if a.gtinv = true then m = 2 else m ∈ a.modelTypes ∧ m < 3
  typesNodup : a.modelTypes.Nodup → (pairTypes g).Nodup
  attrs : ∀ l, g.attrs = some l → (∀ x, x ∈ l ↔ Invariant a x) ∧
    (a.attrs = none → a.modelTypes.Nodup → l.Nodup) ∧ (∀ l', a.attrs = some l' → l = l')
  attrsNone : g.attrs = none → a.gtinv = false ∧ a.attrs = none
  common : g.alpha = a.alpha ∧ g.includeForce = a.includeForce ∧ g.includeStress = a.includeStress

theorem mkGrid_of {a : Args} {cutoffs : List ℚ} {g : Grid}
    (h : mkGrid a (autoGaussians cutoffs a.nums) = .ok g) : GridOf a cutoffs g := by
  unfold mkGrid at h
  split at h
  · cases h
  · by_cases hg : a.gtinv = true
    · rw [if_pos hg] at h
      cases hs : setGtinv a with
      | error e => rw [hs] at h; simp [bind, Except.bind] at h
      | ok l =>
        rw [hs] at h
        simp only [bind, Except.bind, pure, Except.pure, Except.ok.injEq] at h
        subst h
        refine ⟨rfl, rfl, hg.symm, ?_, ?_, ?_, ?_, rfl, rfl, rfl⟩
        · intro m; simp [pairTypes, hg]
        · intro _; simp [pairTypes]
        · rintro l' hl'
          cases hl'
          cases ha : a.attrs with
          | some k =>
            unfold setGtinv at hs
            rw [ha] at hs
            cases hs
            refine ⟨fun x => (by unfold Invariant; rw [ha]), fun h => (by cases h), fun l' h => (by cases h; rfl)⟩
          | none =>
            obtain ⟨h1, h2⟩ := C83_invariants a l ha hs
            refine ⟨fun x => (by unfold Invariant; rw [ha, h1]; simp [hg]), fun _ => h2, fun l' h => (by cases h)⟩
        · intro h; cases h
    · rw [if_neg hg] at h
      cases h
      have hg' : a.gtinv = false := by simpa using hg
      refine ⟨rfl, rfl, hg'.symm, ?_, ?_, ?_, ?_, rfl, rfl, rfl⟩
      · intro m; simp [pairTypes, hg']
      · intro hn; simp only [pairTypes]; exact (hn.filter _).filter _
      · intro l hl
        dsimp only at hl
        refine ⟨fun x => (by unfold Invariant; rw [hl]), fun h => (by rw [h] at hl; cases hl),
          fun l' h => by rw [hl] at h; exact Option.some.inj h⟩
      · intro h; exact ⟨hg', h⟩

theorem max?_spec {l : List ℕ} {m : ℕ} (h : l.max? = some m) : m ∈ l ∧ ∀ x ∈ l, x ≤ m := by
  rw [List.max?_eq_some_iff] at h
  exact h

theorem addSingle_ok {g : Grid} {el : List PStr} {c : ℚ} {n : ℤ} {mp : ℕ} {x : GtinvAttrs} {p : Params}
    (h : addSingle g el c n mp x = .ok p) :
    p.cutoff = c ∧ p.n = n ∧ p.maxP = mp ∧ HasInvariants x p ∧ p.elements = el ∧ p.nType = el.length ∧
      p.alpha = g.alpha ∧ p.includeForce = g.includeForce ∧ p.includeStress = g.includeStress := by
  unfold addSingle at h
  cases hm : x.maxl.max? with
  | none => rw [hm] at h; simp [orErr, bind, Except.bind] at h
  | some m =>
    rw [hm] at h
    simp only [orErr, bind, Except.bind, pure, Except.pure, Except.ok.injEq] at h
    obtain ⟨h1, h2⟩ := max?_spec hm
    subst h
    exact ⟨rfl, rfl, rfl, ⟨rfl, rfl, rfl, h1, h2⟩, rfl, rfl, rfl, rfl, rfl⟩

theorem params_ext {x : GtinvAttrs} {p q : Params} (hp : HasInvariants x p) (hq : HasInvariants x q)
    (h1 : p.cutoff = q.cutoff) (h2 : p.n = q.n) (h3 : p.maxP = q.maxP) (h4 : p.elements = q.elements)
    (h5 : p.nType = q.nType) (h6 : p.alpha = q.alpha) (h7 : p.includeForce = q.includeForce)
    (h8 : p.includeStress = q.includeStress) : p = q := by
  obtain ⟨a1, a2, a3, a4, a5⟩ := hp
  obtain ⟨b1, b2, b3, b4, b5⟩ := hq
  have e : p.maxL = q.maxL := le_antisymm (b5 _ a4) (a5 _ b4)
  cases p; cases q
  simp only [Params.mk.injEq]
  exact ⟨h1, a3.trans b3.symm, h3, e, a1.trans b1.symm, a2.trans b2.symm, h2, h5, h4, h6, h7, h8⟩

theorem enumPair_mem {a : Args} {cutoffs : List ℚ} {g : Grid} (hg : GridOf a cutoffs g) (el : List PStr)
    (p : Params) : p ∈ enumPair g el ↔ PairModel a cutoffs el p := by
  unfold enumPair PairModel
  simp only [List.mem_map, Prod.exists, List.mem_product]
  constructor
  · rintro ⟨r, t, mp, ⟨hr, ht, hmp⟩, rfl⟩
    rw [hg.radial] at hr
    refine ⟨(autoGaussians_mem a cutoffs _ _).1 hr, hg.maxps ▸ hmp, (hg.types t).1 ht, rfl, rfl, rfl,
      rfl, rfl, hg.common.1, hg.common.2.1, hg.common.2.2⟩
  · rintro ⟨hr, hmp, ht, hf, hgt, hl, he, hn, ha, hfo, hst⟩
    refine ⟨⟨p.cutoff, p.n⟩, p.modelType, p.maxP, ⟨?_, (hg.types _).2 ht, hg.maxps ▸ hmp⟩, ?_⟩
    · rw [hg.radial]; exact (autoGaussians_mem a cutoffs _ _).2 hr
    · cases p
      dsimp only at *
      subst_vars
      rw [hg.common.1, hg.common.2.1, hg.common.2.2]

theorem enumGtinv_mem {a : Args} {cutoffs : List ℚ} {g : Grid} (hg : GridOf a cutoffs g) (el : List PStr)
    {l : List Params} (h : enumGtinv g el = .ok l) (p : Params) :
    p ∈ l ↔ InvariantModel a cutoffs el p := by
  unfold enumGtinv at h
  cases ha : g.attrs with
  | none => rw [ha] at h; simp [orErr, bind, Except.bind] at h
  | some xs =>
    rw [ha] at h
    simp only [orErr, bind, Except.bind] at h
    have hf := mapM_all h
    have hx := (hg.attrs xs ha).1
    constructor
    · intro hp
      obtain ⟨i, hi, rfl⟩ := List.mem_iff_getElem.1 hp
      have hi' : i < (g.radial ×ˢ xs).length := hf.length_eq ▸ hi
      have hk := hf.get hi' hi
      simp only [List.get_eq_getElem] at hk
      have hm : (g.radial ×ˢ xs)[i] ∈ g.radial ×ˢ xs := List.getElem_mem hi'
      generalize hq : (g.radial ×ˢ xs)[i] = q at hk hm
      obtain ⟨r, x⟩ := q
      rw [List.mem_product, hg.radial] at hm
      obtain ⟨h1, h2, h3, h4, h5, h6, h7, h8, h9⟩ := addSingle_ok hk
      refine ⟨?_, ⟨x, (hx x).1 hm.2, h4⟩, h3, h5, h6, h7.trans hg.common.1, h8.trans hg.common.2.1,
        h9.trans hg.common.2.2⟩
      rw [h1, h2]
      exact (autoGaussians_mem a cutoffs _ _).1 hm.1
    · rintro ⟨hr, ⟨x, hix, hhx⟩, hmp, he, hn, hal, hfo, hst⟩
      have hm : ((⟨p.cutoff, p.n⟩ : GaussianAttrs), x) ∈ g.radial ×ˢ xs := by
        rw [List.mem_product, hg.radial]
        exact ⟨(autoGaussians_mem a cutoffs _ _).2 hr, (hx x).2 hix⟩
      obtain ⟨i, hi, hq⟩ := List.mem_iff_getElem.1 hm
      have hi' : i < l.length := hf.length_eq ▸ hi
      have hk := hf.get hi hi'
      simp only [List.get_eq_getElem] at hk
      rw [hq] at hk
      obtain ⟨h1, h2, h3, h4, h5, h6, h7, h8, h9⟩ := addSingle_ok hk
      have : l[i] = p := params_ext h4 hhx h1 h2 (h3.trans hmp.symm) (h5.trans he.symm) (h6.trans hn.symm)
        (h7.trans (hg.common.1.trans hal.symm)) (h8.trans (hg.common.2.1.trans hfo.symm))
        (h9.trans (hg.common.2.2.trans hst.symm))
      rw [← this]
      exact List.getElem_mem hi'

/-! ## `set_params` and `run` -/

theorem autoCutoff_ok {sizes : PStr → Option ℚ} {el : List PStr} {a : Args} {c : List ℚ}
    (h : theCutoffs sizes el a = .ok c) : Cutoffs sizes el a c := by
  unfold theCutoffs at h
  unfold Cutoffs
  cases ha : a.cutoffs with
  | some x => rw [ha] at h; cases h; rfl
  | none =>
    rw [ha] at h
    dsimp only at h ⊢
    unfold autoCutoff at h
    cases hm : el.mapM fun e => orErr .keyError (sizes e) with
    | error e => rw [hm] at h; simp [bind, Except.bind] at h
    | ok ss =>
      rw [hm] at h
      simp only [bind, Except.bind] at h
      have hf := mapM_all hm
      cases hx : ss.max? with
      | none => rw [hx] at h; simp [orErr] at h
      | some m =>
        rw [hx] at h
        simp only [orErr, pure, Except.pure, Except.ok.injEq] at h
        rw [List.max?_eq_some_iff] at hx
        have hsz : ∀ i (h1 : i < el.length) (h2 : i < ss.length), sizes el[i] = some ss[i] := by
          intro i h1 h2
          have := hf.get h1 h2
          simp only [List.get_eq_getElem] at this
          cases hs : sizes el[i] with
          | none => rw [hs] at this; simp [orErr] at this
          | some y =>
            rw [hs] at this
            simp only [orErr, Except.ok.injEq] at this
            rw [this]
        refine ⟨m, ?_, ?_, rint (11 / 2 * m), rint (15 / 2 * m), rint_nearest _, rint_nearest _, ?_, ?_⟩
        · obtain ⟨i, hi, rfl⟩ := List.mem_iff_getElem.1 hx.1
          have hi' : i < el.length := hf.length_eq ▸ hi
          exact ⟨el[i], List.getElem_mem _, hsz i hi' hi⟩
        · intro e he
          obtain ⟨i, hi, rfl⟩ := List.mem_iff_getElem.1 he
          have hi' : i < ss.length := hf.length_eq ▸ hi
          exact ⟨ss[i], hsz i hi hi', hx.2 _ (List.getElem_mem _)⟩
        · intro x
          rw [← h]
          split_ifs with h1 h2
          · rw [← h1]; simp
          · simp
          · simp [or_comm]
        · rw [← h]
          split_ifs with h1 h2
          · simp
          · simpa using h1
          · simpa using fun h => h1 h.symm

theorem setParams_ok {sizes : PStr → Option ℚ} {a : Args} {s s' : State}
    (h : setParams sizes a s = .ok s') :
    ∃ c g, Cutoffs sizes s.elements a c ∧ GridOf a c g ∧ s' = { s with grid := some g } := by
  unfold setParams at h
  cases hc : theCutoffs sizes s.elements a with
  | error e => rw [hc] at h; simp [bind, Except.bind] at h
  | ok c =>
    rw [hc] at h
    simp only [bind, Except.bind, pure, Except.pure] at h
    cases hg : mkGrid a (autoGaussians c a.nums) with
    | error e => rw [hg] at h; simp at h
    | ok g =>
      rw [hg] at h
      simp only [Except.ok.injEq] at h
      exact ⟨c, g, autoCutoff_ok hc, mkGrid_of hg, h.symm⟩

theorem pairModels_ok {s s' : State} (h : pairModels s = .ok s') :
    ∃ g, s.grid = some g ∧ s' = { s with params := some (s.params.getD [] ++ enumPair g s.elements) } := by
  unfold pairModels at h
  cases hg : s.grid with
  | none => rw [hg] at h; simp [orErr, bind, Except.bind] at h
  | some g =>
    rw [hg] at h
    simp only [orErr, bind, Except.bind, pure, Except.pure, Except.ok.injEq] at h
    exact ⟨g, rfl, h.symm⟩

theorem gtinvModels_ok {s s' : State} (h : gtinvModels s = .ok s') :
    ∃ g l, s.grid = some g ∧ enumGtinv g s.elements = .ok l ∧
      s' = { s with params := some (s.params.getD [] ++ l) } := by
  unfold gtinvModels at h
  cases hg : s.grid with
  | none => rw [hg] at h; simp [orErr, bind, Except.bind] at h
  | some g =>
    rw [hg] at h
    simp only [orErr, bind, Except.bind] at h
    cases hl : enumGtinv g s.elements with
    | error e => rw [hl] at h; simp at h
    | ok l =>
      rw [hl] at h
      simp only [pure, Except.pure, Except.ok.injEq] at h
      exact ⟨g, l, rfl, hl, h.symm⟩

theorem run_ok {s s' : State} (h : run s = .ok s') :
    ∃ g l, s.grid = some g ∧ (g.gtinv = true → enumGtinv g s.elements = .ok l) ∧
      (g.gtinv = false → l = []) ∧
      s' = { s with params := some (s.params.getD [] ++ (enumPair g s.elements ++ l)) } := by
  obtain ⟨el, gr, pa, hy⟩ := s
  unfold run at h
  cases hp : pairModels ⟨el, gr, pa, hy⟩ with
  | error e => rw [hp] at h; simp [bind, Except.bind] at h
  | ok s1 =>
    obtain ⟨g, hg, rfl⟩ := pairModels_ok hp
    dsimp only at hg
    subst hg
    rw [hp] at h
    simp only [bind, Except.bind, orErr] at h
    by_cases hb : g.gtinv = true
    · rw [if_pos hb] at h
      obtain ⟨g', l, h1, h2, rfl⟩ := gtinvModels_ok h
      dsimp only at h1 h2
      cases h1
      refine ⟨g, l, rfl, fun _ => h2, fun h => (by rw [hb] at h; cases h), ?_⟩
      simp
    · rw [if_neg hb] at h
      simp only [pure, Except.pure, Except.ok.injEq] at h
      refine ⟨g, [], rfl, fun h => absurd h hb, fun _ => rfl, ?_⟩
      rw [← h]
      simp

/-- **C83**: on a new object, `set_params` and `run` list exactly the models of the request. -/
theorem C83_run (sizes : PStr → Option ℚ) (el : List PStr) (a : Args) (s1 s2 : State)
    (h1 : setParams sizes a { elements := el } = .ok s1) (h2 : run s1 = .ok s2) :
    ∃ cutoffs l, Cutoffs sizes el a cutoffs ∧ s2.params = some l ∧
      ∀ p, p ∈ l ↔ PairModel a cutoffs el p ∨ (a.gtinv = true ∧ InvariantModel a cutoffs el p) := by
  obtain ⟨c, g, hc, hgo, rfl⟩ := setParams_ok h1
  obtain ⟨g', l, hg', hl1, hl2, rfl⟩ := run_ok h2
  cases hg'
  refine ⟨c, enumPair g el ++ l, hc, rfl, fun p => ?_⟩
  rw [List.mem_append, enumPair_mem hgo]
  by_cases hb : a.gtinv = true
  · rw [enumGtinv_mem hgo el (hl1 (hgo.gtinv.trans hb))]
    simp [hb]
  · have : l = [] := hl2 (by rw [hgo.gtinv]; simpa using hb)
    subst this
    simp [hb]

/-- **C83**: after a successful `set_params`, `run` raises only for a given invariant setting without
maximum angular numbers. -/
theorem C83_run_ok (sizes : PStr → Option ℚ) (el : List PStr) (a : Args) (s0 s1 : State)
    (h1 : setParams sizes a s0 = .ok s1)
    (hx : ∀ l, a.attrs = some l → ∀ x ∈ l, x.maxl ≠ []) : ∃ s2, run s1 = .ok s2 := by
  obtain ⟨c, g, hc, hgo, rfl⟩ := setParams_ok h1
  unfold run pairModels
  simp only [orErr, bind, Except.bind, pure, Except.pure]
  by_cases hb : g.gtinv = true
  · rw [if_pos hb]
    unfold gtinvModels
    simp only [orErr, bind, Except.bind, pure, Except.pure]
    unfold enumGtinv
    cases ha : g.attrs with
    | none =>
      have := (hgo.attrsNone ha).1
      rw [← hgo.gtinv, hb] at this
      cases this
    | some xs =>
      simp only [orErr, bind, Except.bind]
      have : ∃ r, (g.radial ×ˢ xs).mapM (fun p => addSingle g s0.elements p.1.cutoff p.1.n 2 p.2) = .ok r := by
        apply mapM_exists
        rintro ⟨r, x⟩ hm
        rw [List.mem_product] at hm
        have hne : x.maxl ≠ [] := by
          have hi := ((hgo.attrs xs ha).1 x).1 hm.2
          unfold Invariant at hi
          cases hat : a.attrs with
          | some l => rw [hat] at hi; exact hx l hat x hi
          | none =>
            rw [hat] at hi
            obtain ⟨_, _, h2, _, h4, _⟩ := hi
            intro h0
            rw [h0] at h4
            simp at h4
            omega
        cases hxl : x.maxl with
        | nil => exact absurd hxl hne
        | cons y ys =>
          unfold addSingle
          rw [hxl, List.max?_cons']
          exact ⟨_, rfl⟩
      obtain ⟨r, hr⟩ := this
      rw [hr]
      exact ⟨_, rfl⟩
  · rw [if_neg hb]
    exact ⟨_, rfl⟩

example : (do
    let s ← setParams (fun _ => none) { cutoffs := some [6], nums := some [7], orderUb := 2, maxlUb := [4] }
      { elements := ["Ti".toList] }
    let s ← run s
    return (s.params.getD []).map fun (p : Params) => (p.feature, p.modelType, p.maxP, p.maxL)) =
    .ok [(Feature.pair, 2, 2, 0), (Feature.pair, 2, 3, 0), (Feature.gtinv, 3, 2, 4), (Feature.gtinv, 4, 2, 4)] := by
  decide +kernel

end Verif.GridSearch
