import Verif.Props.GridSearchRun

/-!
# C83: distinct models, histories of calls, hybrid models
-/

namespace Verif.GridSearch
open Verif.Spec.GridSearch
open Verif.Infile (PStr Parsed Value)

/-! ## Distinct models -/

theorem nearest_lt {x y : ℚ} (h : x + 1 < y) : rint x < rint y := by
  have a := abs_le.1 (rint_nearest x).1
  have b := abs_le.1 (rint_nearest y).1
  have : ((rint x : ℤ) : ℚ) < rint y := by linarith [a.1, a.2, b.1, b.2]
  exact_mod_cast this

theorem rint_int (k : ℤ) : rint (k : ℚ) = k := by
  symm
  rw [← nearest_iff]
  exact ⟨by simp, fun h => by simp at h⟩

theorem rint_factors {c : ℚ} (hc : 3 ≤ c) :
    rint ((c + 1) * 1) < rint ((c + 1) * (5 / 4)) ∧ rint ((c + 1) * (5 / 4)) < rint ((c + 1) * (3 / 2)) := by
  rcases hc.lt_or_eq with h | h
  · exact ⟨nearest_lt (by linarith), nearest_lt (by linarith)⟩
  · subst h
    decide +kernel

theorem autoGaussians_nodup (cutoffs : List ℚ) (nums : Option (List ℤ)) (hc : cutoffs.Nodup)
    (hn : ∀ ns, nums = some ns → ns.Nodup) (h3 : nums = none → ∀ c ∈ cutoffs, 3 ≤ c) :
    (autoGaussians cutoffs nums).Nodup := by
  cases nums with
  | some ns =>
    unfold autoGaussians
    refine (hc.product (hn ns rfl)).map ?_
    rintro ⟨a, b⟩ ⟨c, d⟩ h
    simpa using h
  | none =>
    unfold autoGaussians
    refine List.Nodup.map_on ?_ (hc.product (by decide +kernel))
    rintro ⟨c, f⟩ hx ⟨d, e⟩ hy h
    rw [List.mem_product] at hx hy
    simp only [GaussianAttrs.mk.injEq] at h
    obtain ⟨rfl, h⟩ := h
    obtain ⟨h1, h2⟩ := rint_factors (h3 rfl c hx.1)
    have hf := hx.2
    have he := hy.2
    simp only [List.mem_cons, List.not_mem_nil, or_false] at hf he
    rcases hf with rfl | rfl | rfl <;> rcases he with rfl | rfl | rfl <;> first | rfl | (exfalso; omega)

/-- **C83**: if the lists of a request have no repeated entry and automatic numbers of Gaussians are
used only with cutoffs of at least 3, no model is listed twice. -/
theorem C83_distinct (sizes : PStr → Option ℚ) (el : List PStr) (a : Args) (s1 s2 : State)
    (h1 : setParams sizes a { elements := el } = .ok s1) (h2 : run s1 = .ok s2)
    (hc : ∀ c, a.cutoffs = some c → c.Nodup ∧ (a.nums = none → ∀ x ∈ c, 3 ≤ x))
    (hn : ∀ ns, a.nums = some ns → ns.Nodup) (ht : a.modelTypes.Nodup) (hm : a.maxps.Nodup)
    (hx : ∀ l, a.attrs = some l → l.Nodup) : ∀ l, s2.params = some l → l.Nodup := by
  obtain ⟨c, g, hcut, hgo, rfl⟩ := setParams_ok h1
  obtain ⟨g', l, hg', hl1, hl2, rfl⟩ := run_ok h2
  cases hg'
  rintro _ ⟨rfl⟩
  have hcn : c.Nodup ∧ (a.nums = none → ∀ x ∈ c, 3 ≤ x) := by
    unfold Cutoffs at hcut
    cases ha : a.cutoffs with
    | some k =>
      rw [ha] at hcut
      dsimp only at hcut
      subst hcut
      exact hc _ ha
    | none =>
      rw [ha] at hcut
      obtain ⟨m, _, _, k1, k2, _, _, hmem, hnd⟩ := hcut
      refine ⟨hnd, fun _ x hx => ?_⟩
      rcases (hmem x).1 hx with rfl | rfl
      · exact le_max_of_le_right (by norm_num)
      · exact le_max_of_le_right (by norm_num)
  have hr : g.radial.Nodup := by
    rw [hgo.radial]
    exact autoGaussians_nodup c a.nums hcn.1 hn hcn.2
  have hp : (enumPair g el).Nodup := by
    unfold enumPair
    refine List.Nodup.map_on ?_ (hr.product ((hgo.typesNodup ht).product (hgo.maxps ▸ hm)))
    rintro ⟨⟨c1, n1⟩, t1, m1⟩ _ ⟨⟨c2, n2⟩, t2, m2⟩ _ h
    simp only [Params.mk.injEq] at h
    simp only [Prod.mk.injEq, GaussianAttrs.mk.injEq]
    tauto
  simp only [Option.getD_none, List.nil_append]
  rw [List.nodup_append]
  by_cases hb : g.gtinv = true
  · have hl := hl1 hb
    have hlm := enumGtinv_mem hgo el hl
    refine ⟨hp, ?_, ?_⟩
    · unfold enumGtinv at hl
      cases ha : g.attrs with
      | none => rw [ha] at hl; simp [orErr, bind, Except.bind] at hl
      | some xs =>
        rw [ha] at hl
        simp only [orErr, bind, Except.bind] at hl
        have hxs : xs.Nodup := by
          obtain ⟨_, q1, q2⟩ := hgo.attrs xs ha
          cases haa : a.attrs with
          | none => exact q1 haa ht
          | some k => rw [q2 k haa]; exact hx k haa
        have hf := mapM_all hl
        have hprod := hr.product hxs
        rw [List.nodup_iff_injective_get] at hprod ⊢
        intro i j hij
        have hi' : i.1 < (g.radial ×ˢ xs).length := hf.length_eq.symm ▸ i.2
        have hj' : j.1 < (g.radial ×ˢ xs).length := hf.length_eq.symm ▸ j.2
        have ki := addSingle_ok (hf.get hi' i.2)
        have kj := addSingle_ok (hf.get hj' j.2)
        simp only [List.get_eq_getElem] at ki kj hij
        rw [hij] at ki
        have e : (g.radial ×ˢ xs).get ⟨i.1, hi'⟩ = (g.radial ×ˢ xs).get ⟨j.1, hj'⟩ := by
          simp only [List.get_eq_getElem]
          generalize (g.radial ×ˢ xs)[i.1] = u at ki ⊢
          generalize (g.radial ×ˢ xs)[j.1] = v at kj ⊢
          obtain ⟨⟨c1, n1⟩, x1⟩ := u
          obtain ⟨⟨c2, n2⟩, x2⟩ := v
          have hx12 : x1 = x2 := Option.some.inj (ki.2.2.2.1.2.1.symm.trans kj.2.2.2.1.2.1)
          have hc12 : c1 = c2 := ki.1.symm.trans kj.1
          have hn12 : n1 = n2 := ki.2.1.symm.trans kj.2.1
          rw [hx12, hc12, hn12]
        have := hprod e
        simp only [Fin.mk.injEq] at this
        exact Fin.ext this
    · intro p hp1 q hq1 hpq
      subst hpq
      obtain ⟨_, _, _, f1, _⟩ := (enumPair_mem hgo el p).1 hp1
      obtain ⟨_, ⟨x, _, f2, _⟩, _⟩ := (hlm p).1 hq1
      rw [f1] at f2
      cases f2
  · have : l = [] := hl2 (by simpa using hb)
    subst this
    exact ⟨hp, List.nodup_nil, by simp⟩

example : ∃ s1, setParams (fun _ => none) { cutoffs := some [6, 8] } { elements := ["Ti".toList] } = .ok s1 :=
  ⟨_, rfl⟩

/-! ## Histories -/

theorem complexModels_ok {s s' : State} (h : complexModels s = .ok s') :
    ∃ g, s.grid = some g ∧ (s' = s ∨ ∃ (l : List Params) (p1 p2 : Params) (c : ℚ) (n : ℤ),
      s.params = some l ∧ s' = { s with params := some (l ++ [p1, p2]) } ∧
      (g.radial.map (·.cutoff)).max? = some c ∧ (g.radial.map (·.n)).max? = some n ∧ n < 15 ∧
      addSingle g s.elements c (if n < 12 then 12 else 15) 2 ⟨4, 3, [8, 8]⟩ = .ok p1 ∧
      addSingle g s.elements c (if n < 12 then 12 else 15) 2 ⟨4, 4, [12, 8, 2]⟩ = .ok p2) := by
  unfold complexModels at h
  cases hg : s.grid with
  | none => rw [hg] at h; simp [orErr, bind, Except.bind] at h
  | some g =>
    rw [hg] at h
    simp only [orErr, bind, Except.bind] at h
    refine ⟨g, rfl, ?_⟩
    cases hc : (g.radial.map (·.cutoff)).max? with
    | none => rw [hc] at h; simp at h
    | some c =>
      cases hn : (g.radial.map (·.n)).max? with
      | none => rw [hc, hn] at h; simp at h
      | some n =>
        rw [hc, hn] at h
        dsimp only at h
        by_cases h15 : 15 ≤ n
        · rw [if_pos h15] at h
          simp only [pure, Except.pure, Except.ok.injEq] at h
          exact .inl h.symm
        · rw [if_neg h15] at h
          right
          cases h1 : addSingle g s.elements c (if n < 12 then 12 else 15) 2 ⟨4, 3, [8, 8]⟩ with
          | error e => rw [h1] at h; simp at h
          | ok p1 =>
            cases h2 : addSingle g s.elements c (if n < 12 then 12 else 15) 2 ⟨4, 4, [12, 8, 2]⟩ with
            | error e => rw [h1, h2] at h; simp at h
            | ok p2 =>
              rw [h1, h2] at h
              cases hp : s.params with
              | none => rw [hp] at h; simp at h
              | some l =>
                rw [hp] at h
                simp only [pure, Except.pure, Except.ok.injEq] at h
                exact ⟨l, p1, p2, c, n, rfl, h.symm, rfl, rfl, not_le.1 h15, h1, h2⟩

theorem hybridModels_ok {s s' : State} (h : hybridModels s = .ok s') :
    ∃ g l hs, s.grid = some g ∧ s.params = some l ∧
      (l.zipIdx.mapM fun p => hybridPair g s.elements p.1 p.2) = .ok hs ∧
      s' = { s with hybrid := some hs.flatten } := by
  unfold hybridModels at h
  cases hg : s.grid with
  | none => rw [hg] at h; simp [orErr, bind, Except.bind] at h
  | some g =>
    cases hp : s.params with
    | none => rw [hg, hp] at h; simp [orErr, bind, Except.bind] at h
    | some l =>
      rw [hg, hp] at h
      simp only [orErr, bind, Except.bind] at h
      cases hm : l.zipIdx.mapM fun p => hybridPair g s.elements p.1 p.2 with
      | error e =>
        rw [hm] at h
        simp at h
      | ok hs =>
        rw [hm] at h
        simp only [pure, Except.pure, Except.ok.injEq] at h
        exact ⟨g, l, hs, rfl, rfl, hm, h.symm⟩

theorem large_of {a : Args} {c : List ℚ} {g : Grid} (hgo : GridOf a c g) {el : List PStr} {m : ℚ} {n : ℤ}
    {x : GtinvAttrs} {p : Params} (hx : x = ⟨4, 3, [8, 8]⟩ ∨ x = ⟨4, 4, [12, 8, 2]⟩)
    (hm : (g.radial.map (·.cutoff)).max? = some m) (hn : (g.radial.map (·.n)).max? = some n) (h15 : n < 15)
    (h : addSingle g el m (if n < 12 then 12 else 15) 2 x = .ok p) : LargeModel a c el p := by
  obtain ⟨h1, h2, h3, h4, h5, h6, h7, h8, h9⟩ := addSingle_ok h
  rw [List.max?_eq_some_iff] at hm hn
  have hmem : ∀ c' n', Radial a c c' n' → (⟨c', n'⟩ : GaussianAttrs) ∈ g.radial := by
    intro c' n' hr
    rw [hgo.radial]
    exact (autoGaussians_mem a c c' n').2 hr
  refine ⟨?_, ?_, ?_, ?_, h3, h5, h6, h7.trans hgo.common.1, h8.trans hgo.common.2.1, h9.trans hgo.common.2.2⟩
  · obtain ⟨r, hr, e⟩ := List.mem_map.1 hm.1
    refine ⟨r.n, (autoGaussians_mem a c _ _).1 ?_⟩
    rw [h1, ← e, ← hgo.radial]
    exact hr
  · intro c' n' hr
    refine ⟨?_, ?_⟩
    · rw [h1]
      exact hm.2 c' (List.mem_map.2 ⟨_, hmem c' n' hr, rfl⟩)
    · have := hn.2 n' (List.mem_map.2 ⟨_, hmem c' n' hr, rfl⟩)
      rw [h2]
      split_ifs <;> omega
  · rw [h2]
    split_ifs <;> simp
  · rcases hx with rfl | rfl
    · exact .inl h4
    · exact .inr h4

/-- The models a request may list. -/
def Listed (a : Args) (c : List ℚ) (el : List PStr) (p : Params) : Prop :=
  PairModel a c el p ∨ InvariantModel a c el p ∨ LargeModel a c el p

/-- What a call may do to the list of models. -/
structure CallFacts (sizes : PStr → Option ℚ) (s s' : State) (op : Op) : Prop where
  elements : s'.elements = s.elements
  grid : (∃ a c g, op = .setParams a ∧ Cutoffs sizes s.elements a c ∧ s'.grid = some g ∧ GridOf a c g ∧
    s'.params = s.params) ∨ ((∀ a, op ≠ .setParams a) ∧ s'.grid = s.grid ∧
      ∃ g, s.grid = some g ∧ ∃ new, s'.params.getD [] = s.params.getD [] ++ new ∧
        ∀ a c, GridOf a c g → ∀ p ∈ new, Listed a c s.elements p)

theorem call_facts {sizes : PStr → Option ℚ} {s s' : State} {op : Op} (h : call sizes s op = .ok s') :
    CallFacts sizes s s' op := by
  cases op with
  | setParams a =>
    obtain ⟨c, g, hc, hgo, rfl⟩ := setParams_ok h
    exact ⟨rfl, .inl ⟨a, c, g, rfl, hc, rfl, hgo, rfl⟩⟩
  | pair =>
    obtain ⟨g, hg, rfl⟩ := pairModels_ok h
    exact ⟨rfl, .inr ⟨by simp, rfl, g, hg, _, rfl, fun a c hgo p hp => .inl ((enumPair_mem hgo _ p).1 hp)⟩⟩
  | gtinv =>
    obtain ⟨g, l, hg, hl, rfl⟩ := gtinvModels_ok h
    exact ⟨rfl, .inr ⟨by simp, rfl, g, hg, _, rfl,
      fun a c hgo p hp => .inr (.inl ((enumGtinv_mem hgo _ hl p).1 hp))⟩⟩
  | run =>
    obtain ⟨g, l, hg, hl1, hl2, rfl⟩ := run_ok h
    refine ⟨rfl, .inr ⟨by simp, rfl, g, hg, _, rfl, fun a c hgo p hp => ?_⟩⟩
    rcases List.mem_append.1 hp with hp | hp
    · exact .inl ((enumPair_mem hgo _ p).1 hp)
    · by_cases hb : g.gtinv = true
      · exact .inr (.inl ((enumGtinv_mem hgo _ (hl1 hb) p).1 hp))
      · rw [hl2 (by simpa using hb)] at hp
        simp at hp
  | complex =>
    obtain ⟨g, hg, hs⟩ := complexModels_ok h
    rcases hs with rfl | ⟨l, p1, p2, c, n, hp, rfl, hc, hn, h15, h1, h2⟩
    · exact ⟨rfl, .inr ⟨by simp, rfl, g, hg, [], by simp, by simp⟩⟩
    · refine ⟨rfl, .inr ⟨by simp, rfl, g, hg, [p1, p2], by rw [hp]; rfl, fun a c hgo p hp => ?_⟩⟩
      simp only [List.mem_cons, List.not_mem_nil, or_false] at hp
      rcases hp with rfl | rfl
      · exact .inr (.inr (large_of hgo (.inl rfl) hc hn h15 h1))
      · exact .inr (.inr (large_of hgo (.inr rfl) hc hn h15 h2))
  | hybrid =>
    obtain ⟨g, l, hs, hg, hp, hm, rfl⟩ := hybridModels_ok h
    exact ⟨rfl, .inr ⟨by simp, rfl, g, hg, [], by simp, by simp⟩⟩

theorem calls_snoc (sizes : PStr → Option ℚ) (ops : List Op) (op : Op) (s : State) :
    calls sizes (ops ++ [op]) s = ((call sizes (calls sizes ops s) op).toOption).getD (calls sizes ops s) := by
  unfold calls
  rw [List.foldl_append]
  rfl

theorem calls_inv (sizes : PStr → Option ℚ) (el : List PStr) (ops : List Op) :
    let s := calls sizes ops { elements := el }
    s.elements = el ∧
    (∀ g, s.grid = some g → ∃ a c, Op.setParams a ∈ ops ∧ Cutoffs sizes el a c ∧ GridOf a c g) ∧
    ∀ p ∈ s.params.getD [], ∃ a c, Op.setParams a ∈ ops ∧ Cutoffs sizes el a c ∧ Listed a c el p := by
  induction ops using List.reverseRecOn with
  | nil => simp [calls]
  | append_singleton ops op ih =>
    intro s
    have hs : s = ((call sizes (calls sizes ops { elements := el }) op).toOption).getD
        (calls sizes ops { elements := el }) := calls_snoc sizes ops op _
    generalize calls sizes ops { elements := el } = s0 at ih hs
    obtain ⟨h1, h2, h3⟩ := ih
    cases hc : call sizes s0 op with
    | error e =>
      rw [hc] at hs
      simp only [Except.toOption, Option.getD_none] at hs
      rw [hs]
      refine ⟨h1, fun g hg => ?_, fun p hp => ?_⟩
      · obtain ⟨a, c, ha, hr⟩ := h2 g hg
        exact ⟨a, c, by simp [ha], hr⟩
      · obtain ⟨a, c, ha, hr⟩ := h3 p hp
        exact ⟨a, c, by simp [ha], hr⟩
    | ok s1 =>
      rw [hc] at hs
      simp only [Except.toOption, Option.getD_some] at hs
      rw [hs]
      have hf := call_facts hc
      refine ⟨hf.elements.trans h1, ?_, ?_⟩
      · intro g hg
        rcases hf.grid with ⟨a, c, g', hop, hcut, hg', hgo, _⟩ | ⟨_, hge, _⟩
        · rw [hg'] at hg
          cases hg
          exact ⟨a, c, by simp [hop], h1 ▸ hcut, hgo⟩
        · obtain ⟨a, c, ha, hr⟩ := h2 g (hge ▸ hg)
          exact ⟨a, c, by simp [ha], hr⟩
      · intro p hp
        rcases hf.grid with ⟨a, c, g', hop, hcut, hg', hgo, hpe⟩ | ⟨_, hge, g, hg, new, hnew, hl⟩
        · rw [hpe] at hp
          obtain ⟨a, c, ha, hr⟩ := h3 p hp
          exact ⟨a, c, by simp [ha], hr⟩
        · rw [hnew, List.mem_append] at hp
          rcases hp with hp | hp
          · obtain ⟨a, c, ha, hr⟩ := h3 p hp
            exact ⟨a, c, by simp [ha], hr⟩
          · obtain ⟨a, c, ha, hcut, hgo⟩ := h2 g hg
            exact ⟨a, c, by simp [ha], hcut, h1 ▸ hl a c hgo p hp⟩

/-- **C83**: whatever calls were made, each model of the list was asked for: it belongs to the grid of
some request made, or is one of the two large models of it. -/
theorem C83_history (sizes : PStr → Option ℚ) (el : List PStr) (ops : List Op) (l : List Params)
    (h : (calls sizes ops { elements := el }).params = some l) :
    ∀ p ∈ l, ∃ a c, Op.setParams a ∈ ops ∧ Cutoffs sizes el a c ∧
      (PairModel a c el p ∨ InvariantModel a c el p ∨ LargeModel a c el p) := by
  intro p hp
  exact (calls_inv sizes el ops).2.2 p (by rw [h]; exact hp)

/-- **C83**: models are never removed or reordered: the list before some calls is the beginning of the
list after them. -/
theorem C83_grows (sizes : PStr → Option ℚ) (ops : List Op) (s : State) :
    s.params.getD [] <+: (calls sizes ops s).params.getD [] := by
  induction ops using List.reverseRecOn with
  | nil => exact List.prefix_rfl
  | append_singleton ops op ih =>
    refine ih.trans ?_
    rw [calls_snoc]
    generalize calls sizes ops s = s0
    cases hc : call sizes s0 op with
    | error e => exact List.prefix_rfl
    | ok s1 =>
      rcases (call_facts hc).grid with ⟨_, _, _, _, _, _, _, hpe⟩ | ⟨_, _, _, _, new, hnew, _⟩
      · simp [Except.toOption, hpe]
      · simp only [Except.toOption, Option.getD_some, hnew]
        exact List.prefix_append _ _

/-- **C83**: nothing can be listed before `set_params`. -/
theorem C83_first (sizes : PStr → Option ℚ) (s : State) (h : s.grid = none) :
    ∀ op, (∀ a, op ≠ .setParams a) → call sizes s op = .error .runtimeError := by
  intro op hop
  cases op with
  | setParams a => exact absurd rfl (hop a)
  | pair => simp [call, pairModels, h, orErr, bind, Except.bind]
  | gtinv => simp [call, gtinvModels, h, orErr, bind, Except.bind]
  | run => simp [call, run, pairModels, h, orErr, bind, Except.bind]
  | complex => simp [call, complexModels, h, orErr, bind, Except.bind]
  | hybrid => simp [call, hybridModels, h, orErr, bind, Except.bind]

/-! ## Hybrid models -/

theorem hybridPair_ok {g : Grid} {el : List PStr} {p : Params} {i : ℕ} {hs : List Hybrid}
    (h : hybridPair g el p i = .ok hs) : ∃ a1 a2, hs = [⟨p, a1, i, 1⟩, ⟨p, a2, i, 2⟩] ∧
      SecondOf p a1 [4, 4] ∧ SecondOf p a2 [8, 8] ∧ a1.elements = el ∧ a2.elements = el := by
  unfold hybridPair at h
  simp only [bind, Except.bind] at h
  split at h
  · cases h
  · rename_i a1 h1
    split at h
    · cases h
    · rename_i a2 h2
      simp only [pure, Except.pure, Except.ok.injEq] at h
      obtain ⟨b1, b2, b3, b4, b5, _⟩ := addSingle_ok h1
      obtain ⟨c1, c2, c3, c4, c5, _⟩ := addSingle_ok h2
      have e : rint (((rint (p.cutoff * 2 / 3) : ℤ) + 1 : ℚ) * 2) = 2 * (rint (p.cutoff * 2 / 3) + 1) := by
        have := rint_int (2 * (rint (p.cutoff * 2 / 3) + 1))
        push_cast at this
        rw [← this]
        congr 1
        ring
      rw [e] at b2 c2
      exact ⟨a1, a2, h.symm, ⟨⟨_, rint_nearest _, b1, b2⟩, b4, b3⟩, ⟨⟨_, rint_nearest _, c1, c2⟩, c4, c3⟩,
        b5, c5⟩

/-- **C83**: the hybrid models are, for each model listed at that time and in its order, that model with
one of two second models. -/
theorem C83_hybrid (s s' : State) (h : hybridModels s = .ok s') :
    ∃ l hs, s.params = some l ∧ s'.params = some l ∧ s'.hybrid = some hs ∧ hs.length = 2 * l.length ∧
      ∀ (i : ℕ) (p : Params), l[i]? = some p → ∃ a1 a2, hs[2 * i]? = some ⟨p, a1, i, 1⟩ ∧
        hs[2 * i + 1]? = some ⟨p, a2, i, 2⟩ ∧ SecondOf p a1 [4, 4] ∧ SecondOf p a2 [8, 8] := by
  obtain ⟨g, l, hs, hg, hp, hm, rfl⟩ := hybridModels_ok h
  refine ⟨l, hs.flatten, hp, hp, rfl, ?_⟩
  have hf := mapM_all hm
  have key : ∀ (zs : List (Params × ℕ)) (hs : List (List Hybrid)),
      List.Forall₂ (fun z b => hybridPair g s.elements z.1 z.2 = .ok b) zs hs →
      hs.flatten.length = 2 * zs.length ∧ ∀ (i : ℕ) (z : Params × ℕ), zs[i]? = some z →
        ∃ a1 a2, hs.flatten[2 * i]? = some ⟨z.1, a1, z.2, 1⟩ ∧
          hs.flatten[2 * i + 1]? = some ⟨z.1, a2, z.2, 2⟩ ∧ SecondOf z.1 a1 [4, 4] ∧ SecondOf z.1 a2 [8, 8] := by
    intro zs hs hf
    induction hf with
    | nil => simp
    | cons h1 _ ih =>
      obtain ⟨a1, a2, rfl, s1, s2, _⟩ := hybridPair_ok h1
      refine ⟨by simp [ih.1]; omega, ?_⟩
      intro i z hz
      cases i with
      | zero =>
        simp only [List.getElem?_cons_zero, Option.some.injEq] at hz
        subst hz
        exact ⟨a1, a2, rfl, rfl, s1, s2⟩
      | succ i =>
        obtain ⟨b1, b2, e1, e2, q⟩ := ih.2 i z hz
        exact ⟨b1, b2, e1, e2, q⟩
  obtain ⟨k1, k2⟩ := key _ _ hf
  refine ⟨by rw [k1, List.length_zipIdx], fun i p hi => ?_⟩
  exact k2 i (p, i) (by rw [List.getElem?_zipIdx, hi]; simp)

/-! ## What is wrong -/

/-- A request with one pair model. -/
def oneModel : Args := { cutoffs := some [6], nums := some [7], modelTypes := [1], maxps := [2], gtinv := false }

/-- **C83** violated: `run` a second time lists every model twice, and after another `set_params` the
models of the earlier request stay in the list. -/
theorem C83_again_violation :
    (∃ p, (calls (fun _ => none) [.setParams oneModel, .run, .run] { elements := ["Ti".toList] }).params =
      some [p, p]) ∧
    ∃ p q, (calls (fun _ => none) [.setParams oneModel, .run, .setParams { oneModel with cutoffs := some [8] },
      .run] { elements := ["Ti".toList] }).params = some [p, q] ∧ p.cutoff = 6 ∧ q.cutoff = 8 :=
  ⟨⟨_, rfl⟩, _, _, rfl, rfl, rfl⟩

/-- **C83** violated: with small cutoffs the automatic numbers of Gaussians repeat, and a model is listed
twice. -/
theorem C83_small_violation :
    (calls (fun _ => none) [.setParams { oneModel with cutoffs := some [2], nums := none }, .run]
      { elements := ["Ti".toList] }).params.map (fun (l : List Params) => l.map fun (p : Params) => p.n) =
      some [3, 4, 4] := by
  decide +kernel

/-- A request of polynomials of order three of models of type 4. -/
def cubic : Args :=
  { cutoffs := some [6], nums := some [7], modelTypes := [4], maxps := [3], orderUb := 2, maxlUb := [4] }

/-- **C83** violated: the orders of polynomials asked for are not used for models with invariants, and a
pair model of type 2 is listed although the type was not asked for. -/
theorem C83_ignored_violation :
    (calls (fun _ => none) [.setParams cubic, .run] { elements := ["Ti".toList] }).params.map
      (fun (l : List Params) => l.map fun (p : Params) => (p.modelType, p.maxP)) = some [(2, 3), (4, 2)] := by
  decide +kernel

/-- **C83** violated: the large models cannot be added before another enumeration; the error does not say
so. -/
theorem C83_large_violation : ∃ s, setParams (fun _ => none) oneModel { elements := ["Ti".toList] } = .ok s ∧
    complexModels s = .error .attributeError :=
  ⟨_, rfl, by decide +kernel⟩

/-- **C83** violated: hybrid models listed before another enumeration do not contain the models added by
it. -/
theorem C83_stale_violation :
    ∃ s l hs, s = calls (fun _ => none) [.setParams oneModel, .run, .hybrid, .complex] { elements := ["Ti".toList] } ∧
      s.params = some l ∧ s.hybrid = some hs ∧ l.length = 3 ∧ hs.length = 2 :=
  ⟨_, _, _, rfl, rfl, rfl, rfl, rfl⟩

end Verif.GridSearch
