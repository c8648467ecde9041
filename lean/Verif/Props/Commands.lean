import Verif.Spec.Commands

/-!
# C110: the command lines do what their options ask for
-/

namespace Verif.Commands
open Verif.Spec

variable {C : Type}

theorem exec_spec (ext : List C → C → Option Err) (o : Option Err) (l h : List C) :
    (∃ k, k <+: l ∧ (exec ext l o h).1 = h ++ k) ∧
      ((exec ext l o h).2 = .ok () → (exec ext l o h).1 = h ++ l ∧ o = none) := by
  induction l generalizing h with
  | nil => cases o <;> simp [exec]
  | cons c l ih =>
    rw [exec]
    cases hc : ext h c with
    | some e => exact ⟨⟨[c], by simp, rfl⟩, by simp⟩
    | none =>
      obtain ⟨⟨k, hk, he⟩, h2⟩ := ih (h ++ [c])
      refine ⟨⟨c :: k, by simpa using hk, by simp [he]⟩, fun hr => ?_⟩
      have := h2 hr
      simpa using this

theorem run_prefix (ext : List C → C → Option Err) (p : Line C) : (run ext p).1 <+: p.1 := by
  obtain ⟨⟨k, hk, he⟩, -⟩ := exec_spec ext p.2 p.1 []
  unfold run
  rw [he]
  simpa using hk

theorem run_ok (ext : List C → C → Option Err) (p : Line C) (h : (run ext p).2 = .ok ()) :
    (run ext p).1 = p.1 ∧ p.2 = none := by
  have := (exec_spec ext p.2 p.1 []).2 h
  simpa [run] using this

theorem run_free (p : Line C) (h : p.2 = none) : run (fun _ _ => none) p = (p.1, .ok ()) := by
  have key : ∀ (l h : List C), exec (fun _ _ => none) l none h = (h ++ l, .ok ()) := by
    intro l
    induction l with
    | nil => intro h; simp [exec]
    | cons c l ih => intro h; rw [exec]; simp [ih]
  unfold run
  rw [h, key]
  simp

/-! ### Sampling of structures -/

/-- The list of calls in the three modes, when no exception is raised. -/
theorem str_cases (a : Str.Args) :
    (∃ n, a.displacements = some n ∧ ∃ c, SampleAsked a c ∧ MakesSamples c ∧ (a.isotropic = none → a.standard = none →
      a.lowDensity = none → a.highDensity = none → ∀ c', SampleAsked a c' → c' = c) ∧
      Str.main a = ([.load a.poscars, .supercell a.supercell, c, .save], none)) ∨
    (a.displacements = none ∧ ∃ n, a.isotropic = some n ∧ ∃ c, SampleAsked a c ∧ MakesSamples c ∧
      (a.standard = none → a.lowDensity = none → a.highDensity = none → ∀ c', SampleAsked a c' → c' = c) ∧
      Str.main a = ([.load a.poscars, .supercell a.supercell, c, .save], none)) ∨
    (a.displacements = none ∧ a.isotropic = none ∧ ∃ l, (∀ c ∈ l, SampleAsked a c ∧ MakesSamples c) ∧
      (∀ c, SampleAsked a c → l.count c = 1) ∧
      Str.main a = (.load a.poscars :: .supercellsAuto 129 :: (l ++ [.save]), none)) ∨
    (a.displacements ≠ none ∧ Str.main a = ([.load a.poscars], some .runtimeError)) ∨
    (a.displacements = none ∧ a.isotropic = none ∧
      Str.main a = ([.load a.poscars, .supercellsAuto 129], some .runtimeError)) := by
  obtain ⟨ps, mn, disp, iso, dense, std, low, high, dd, cd, md, sc, nv, lo, hi⟩ := a
  cases disp with
  | some n =>
    cases cd with
    | some d =>
      refine .inl ⟨n, rfl, .const n d, .const rfl rfl, trivial, ?_, rfl⟩
      intro h1 h2 h3 h4 c' hc
      cases hc <;> simp_all
    | none =>
      cases md with
      | none => exact .inr (.inr (.inr (.inl ⟨by simp, rfl⟩)))
      | some d =>
        refine .inl ⟨n, rfl, _, .sequential rfl rfl rfl, trivial, ?_, rfl⟩
        intro h1 h2 h3 h4 c' hc
        cases hc <;> simp_all
  | none =>
    cases iso with
    | some n =>
      refine .inr (.inl ⟨rfl, n, rfl, _, .isotropic rfl, trivial, ?_, rfl⟩)
      intro h2 h3 h4 c' hc
      cases hc <;> simp_all
    | none =>
      by_cases hstd : std ≠ none ∧ md = none
      · refine .inr (.inr (.inr (.inr ⟨rfl, rfl, ?_⟩)))
        obtain ⟨h1, rfl⟩ := hstd
        cases std with
        | none => exact absurd rfl h1
        | some n => rfl
      · refine .inr (.inr (.inl ⟨rfl, rfl, ?_⟩))
        cases std with
        | none =>
          cases low <;> cases high
          · refine ⟨[], by simp, ?_, rfl⟩
            intro c hc
            cases hc <;> simp_all
          · refine ⟨[_], ?_, ?_, rfl⟩
            · simp only [List.mem_singleton, forall_eq]
              exact ⟨.high rfl, trivial⟩
            · intro c hc
              cases hc <;> simp_all
          · refine ⟨[_], ?_, ?_, rfl⟩
            · simp only [List.mem_singleton, forall_eq]
              exact ⟨.low rfl, trivial⟩
            · intro c hc
              cases hc <;> simp_all
          · refine ⟨[_, _], ?_, ?_, rfl⟩
            · simp only [List.mem_cons, List.not_mem_nil, or_false, forall_eq_or_imp, forall_eq]
              exact ⟨⟨.low rfl, trivial⟩, ⟨.high rfl, trivial⟩⟩
            · intro c hc
              cases hc <;> simp_all [List.count_cons]
        | some n =>
          cases md with
          | none => simp at hstd
          | some d =>
            cases low <;> cases high
            · refine ⟨[_], ?_, ?_, rfl⟩
              · simp only [List.mem_singleton, forall_eq]
                exact ⟨.standard rfl rfl, trivial⟩
              · intro c hc
                cases hc <;> simp_all
            · refine ⟨[_, _], ?_, ?_, rfl⟩
              · simp only [List.mem_cons, List.not_mem_nil, or_false, forall_eq_or_imp, forall_eq]
                exact ⟨⟨.standard rfl rfl, trivial⟩, ⟨.high rfl, trivial⟩⟩
              · intro c hc
                cases hc <;> simp_all [List.count_cons]
            · refine ⟨[_, _], ?_, ?_, rfl⟩
              · simp only [List.mem_cons, List.not_mem_nil, or_false, forall_eq_or_imp, forall_eq]
                exact ⟨⟨.standard rfl rfl, trivial⟩, ⟨.low rfl, trivial⟩⟩
              · intro c hc
                cases hc <;> simp_all [List.count_cons]
            · refine ⟨[_, _, _], ?_, ?_, rfl⟩
              · simp only [List.mem_cons, List.not_mem_nil, or_false, forall_eq_or_imp, forall_eq]
                exact ⟨⟨.standard rfl rfl, trivial⟩, ⟨.low rfl, trivial⟩, ⟨.high rfl, trivial⟩⟩
              · intro c hc
                cases hc <;> simp_all [List.count_cons]

theorem prefix_last {α : Type} {x : α} {t l : List α} (h : t <+: l ++ [x]) (hx : x ∈ t) (hl : x ∉ l) : t = l ++ [x] := by
  obtain ⟨r, hr⟩ := h
  rcases List.append_eq_append_iff.1 hr with ⟨k, hk, -⟩ | ⟨k, rfl, hk2⟩
  · exact absurd (hk ▸ List.mem_append_left k hx) hl
  · cases k with
    | nil => simp at hx; exact absurd hx hl
    | cons y k => simp at hk2; simp [hk2]

/-- What is common to all command lines for samples. -/
theorem str_main (a : Str.Args) :
    (∀ c ∈ (Str.main a).1, MakesSamples c → SampleAsked a c) ∧
    ((Str.main a).1[0]? = some (.load a.poscars)) ∧
    (∀ i c, (Str.main a).1[i]? = some c → MakesSamples c → 2 ≤ i) ∧
    (∀ c, (Str.main a).1[1]? = some c → (a.displacements ≠ none ∨ a.isotropic ≠ none) ∧ c = .supercell a.supercell ∨
      a.displacements = none ∧ a.isotropic = none ∧ c = .supercellsAuto 129) ∧
    ((Str.main a).2 = none ∨ Str.Call.save ∈ (Str.main a).1 → ∃ l, (Str.main a).1 = l ++ [.save] ∧ Str.Call.save ∉ l ∧
      (OneGroup a → ∀ c, SampleAsked a c → l.count c = 1)) := by
  have key : ∀ (l : List Str.Call) (x y : Str.Call), ¬ MakesSamples x → ¬ MakesSamples y → ∀ (i : ℕ) c,
      (x :: y :: l)[i]? = some c → MakesSamples c → 2 ≤ i := by
    intro l x y hx hy i c hi hc
    match i with
    | 0 => simp at hi; subst hi; exact absurd hc hx
    | 1 => simp at hi; subst hi; exact absurd hc hy
    | i + 2 => omega
  rcases str_cases a with ⟨n, hd, c, hc, hm, hu, he⟩ | ⟨hd, n, hi, c, hc, hm, hu, he⟩ | ⟨hd, hi, l, hl, hu, he⟩ | ⟨hd, he⟩ |
    ⟨hd, hi, he⟩ <;> rw [he]
  · refine ⟨?_, rfl, key _ _ _ (by simp [MakesSamples]) (by simp [MakesSamples]), ?_, fun _ => ?_⟩
    · simp [MakesSamples, hc]
    · intro c' h; simp at h; exact .inl ⟨by simp [hd], h.symm⟩
    · refine ⟨[.load a.poscars, .supercell a.supercell, c], rfl, ?_, ?_⟩
      · intro h; simp at h; subst h; exact hm
      · rintro (⟨h1, h2, h3, h4⟩ | ⟨h1, -⟩ | ⟨h1, -⟩) c' hc'
        · rw [hu h1 h2 h3 h4 c' hc', List.count_cons_of_ne (by rintro rfl; exact hm),
            List.count_cons_of_ne (by rintro rfl; exact hm)]
          simp
        · simp [hd] at h1
        · simp [hd] at h1
  · refine ⟨?_, rfl, key _ _ _ (by simp [MakesSamples]) (by simp [MakesSamples]), ?_, fun _ => ?_⟩
    · simp [MakesSamples, hc]
    · intro c' h; simp at h; exact .inl ⟨by simp [hi], h.symm⟩
    · refine ⟨[.load a.poscars, .supercell a.supercell, c], rfl, ?_, ?_⟩
      · intro h; simp at h; subst h; exact hm
      · rintro (⟨h1, -⟩ | ⟨-, h2, h3, h4⟩ | ⟨-, h1⟩) c' hc'
        · simp [hi] at h1
        · rw [hu h2 h3 h4 c' hc', List.count_cons_of_ne (by rintro rfl; exact hm),
            List.count_cons_of_ne (by rintro rfl; exact hm)]
          simp
        · simp [hi] at h1
  · refine ⟨?_, rfl, key _ _ _ (by simp [MakesSamples]) (by simp [MakesSamples]), ?_, fun _ => ?_⟩
    · intro c h hm
      simp only [List.mem_cons, List.mem_append, List.not_mem_nil, or_false] at h
      rcases h with rfl | rfl | h | rfl
      · exact hm.elim
      · exact hm.elim
      · exact (hl c h).1
      · exact hm.elim
    · intro c' h; simp at h; exact .inr ⟨hd, hi, h.symm⟩
    · refine ⟨.load a.poscars :: .supercellsAuto 129 :: l, rfl, ?_, fun _ c hc => ?_⟩
      · intro h
        simp at h
        exact (hl _ h).2
      · have hm : MakesSamples c := (hl c (List.count_pos_iff.1 (by rw [hu c hc]; omega))).2
        rw [List.count_cons_of_ne (by rintro rfl; exact hm), List.count_cons_of_ne (by rintro rfl; exact hm), hu c hc]
  · refine ⟨by simp [MakesSamples], rfl, ?_, by simp, by simp⟩
    intro i c hi hc
    match i with
    | 0 => simp at hi; subst hi; exact hc.elim
    | i + 1 => simp at hi
  · refine ⟨by simp [MakesSamples], rfl, key _ _ _ (by simp [MakesSamples]) (by simp [MakesSamples]), ?_, by simp⟩
    intro c' h; simp at h; exact .inr ⟨hd, hi, h.symm⟩

/-- **C110** For every command line of `pypolymlp-structure` and whatever its calls raise: only samples that the options
ask for are made, from the given structures and after the supercells are built; for displacements and volumes these are
of the given size.  When the program ends without an exception, or has written anything, then each sample that options of one
group ask for was made exactly once before writing, and writing is the last thing done. -/
theorem C110_structure_partial (ext : List Str.Call → Str.Call → Option Err) (a : Str.Args) :
    (∀ c ∈ (run ext (Str.main a)).1, MakesSamples c → SampleAsked a c) ∧
    (∀ (i : ℕ) c, (run ext (Str.main a)).1[i]? = some c → MakesSamples c → 2 ≤ i ∧
      (run ext (Str.main a)).1[0]? = some (.load a.poscars) ∧
      ∃ b, (run ext (Str.main a)).1[1]? = some b ∧
        ((a.displacements ≠ none ∨ a.isotropic ≠ none) ∧ b = .supercell a.supercell ∨
          a.displacements = none ∧ a.isotropic = none ∧ b = .supercellsAuto 129)) ∧
    ((run ext (Str.main a)).2 = .ok () ∨ Str.Call.save ∈ (run ext (Str.main a)).1 →
      ∃ l, (run ext (Str.main a)).1 = l ++ [.save] ∧ Str.Call.save ∉ l ∧
        (OneGroup a → ∀ c, SampleAsked a c → l.count c = 1)) := by
  obtain ⟨h1, h2, h3, h4, h5⟩ := str_main a
  have hp := run_prefix ext (Str.main a)
  obtain ⟨r, hr⟩ := hp
  have get : ∀ (i : ℕ), i < (run ext (Str.main a)).1.length → (run ext (Str.main a)).1[i]? = (Str.main a).1[i]? := by
    intro i hi
    conv_rhs => rw [← hr, List.getElem?_append_left hi]
  refine ⟨fun c hc => h1 c ((run_prefix ext _).subset hc), ?_, ?_⟩
  · intro i c hi hc
    obtain ⟨hlt, -⟩ := List.getElem?_eq_some_iff.1 hi
    have h := h3 i c (by rw [← get i hlt]; exact hi) hc
    refine ⟨h, by rw [get 0 (by omega)]; exact h2, (run ext (Str.main a)).1[1]'(by omega), ?_, ?_⟩
    · exact List.getElem?_eq_getElem (by omega)
    · apply h4
      rw [← get 1 (by omega)]
      exact List.getElem?_eq_getElem (by omega)
  · rintro (h | h)
    · obtain ⟨e, h0⟩ := run_ok ext _ h
      rw [e]
      exact h5 (.inl h0)
    · obtain ⟨l, hl, hn, hc⟩ := h5 (.inr ((run_prefix ext _).subset h))
      exact ⟨l, prefix_last (hl ▸ run_prefix ext _) h hn, hn, hc⟩

example : (run (fun _ _ => none)
    (Str.main { poscars := ["A"], standard := some 10, maxDistance := some 1, highDensity := some 5 })) = ([.load ["A"], .supercellsAuto 129, .standard 10 1, .density 5 (1 / 5) false, .save],
      .ok ()) := by decide +kernel

/-- **C110, violation** `--max_natom` is never used: supercells are built for at most 129 atoms (finding F185). -/
theorem C110_natom_violation :
    (∀ (ext : List Str.Call → Str.Call → Option Err) a n, Str.Call.supercellsAuto n ∈ (run ext (Str.main a)).1 → n = 129) ∧
    ∃ a : Str.Args, a.maxNatom = 64 ∧ (run (fun _ _ => none) (Str.main a)).2 = .ok () ∧
      Str.Call.supercellsAuto 129 ∈ (run (fun _ _ => none) (Str.main a)).1 := by
  constructor
  · intro ext a n h
    have h := (run_prefix ext _).subset h
    rcases str_cases a with ⟨m, hd, c, hc, hm, hu, he⟩ | ⟨hd, m, hi, c, hc, hm, hu, he⟩ | ⟨hd, hi, l, hl, hu, he⟩ |
      ⟨hd, he⟩ | ⟨hd, hi, he⟩ <;> rw [he] at h
    · simp at h; subst h; exact hm.elim
    · simp at h; subst h; exact hm.elim
    · simp at h
      rcases h with h | h
      · exact h
      · exact ((hl _ h).2).elim
    · simp at h
    · simp at h; exact h
  · exact ⟨{ poscars := ["A"], maxNatom := 64, lowDensity := some 3 }, rfl, by decide +kernel, by decide +kernel⟩

/-- **C110, violation** Options of another group are dropped without a word: with `--displacements` and `--standard` only
the displacements are made (finding F186). -/
theorem C110_groups_violation : ∃ (a : Str.Args) (c : Str.Call), SampleAsked a c ∧
    (run (fun _ _ => none) (Str.main a)).2 = .ok () ∧ c ∉ (run (fun _ _ => none) (Str.main a)).1 :=
  ⟨{ poscars := ["A"], displacements := some 5, constDistance := some 1, standard := some 10, maxDistance := some 2 },
    .standard 10 2, .standard rfl rfl, by decide +kernel, by decide +kernel⟩

/-! ### Structures for SSCHA -/

/-- **C110** Every command line of `pypolymlp-sscha-structure` loads the structure, makes one kind of samples that the
options ask for (symmetric ones when nothing is asked for), and writes them; an exception of a call ends it before. -/
theorem C110_sscha_structure (ext : List SschaStr.Call → SschaStr.Call → Option Err) (a : SschaStr.Args) :
    ∃ c, SymAsked a c ∧ (run ext (SschaStr.main a)).1 <+: [.load a.poscar, c, .save] ∧
      ((run ext (SschaStr.main a)).2 = .ok () → (run ext (SschaStr.main a)).1 = [.load a.poscar, c, .save]) := by
  have key : ∃ c, SymAsked a c ∧ SschaStr.main a = ([.load a.poscar, c, .save], none) := by
    obtain ⟨p, sym, vol, cell, n, d, m, lo, hi⟩ := a
    cases sym
    · cases vol
      · cases cell
        · exact ⟨_, .sym (.inr ⟨rfl, rfl⟩), rfl⟩
        · exact ⟨_, .cell rfl, rfl⟩
      · exact ⟨_, .volume rfl, rfl⟩
    · exact ⟨_, .sym (.inl rfl), rfl⟩
  obtain ⟨c, hc, he⟩ := key
  refine ⟨c, hc, ?_, fun h => ?_⟩
  · simpa [he] using run_prefix ext (SschaStr.main a)
  · simpa [he] using (run_ok ext _ h).1

example : (run (fun _ _ => none) (SschaStr.main { poscar := "A", cell := true })).1 =
    [.load "A", .volumes 100 (4 / 5) (13 / 10) false (some (1 / 10)), .save] := by decide +kernel

/-! ### SSCHA -/

/-- **C110** For every command line of `pypolymlp-sscha` and whatever its calls raise: a calculation is made only when
the potential, if any, the structure and the charges, if any, were set, and it is one that the options ask for with
their values, except that the method is always `BFGS`; without an exception exactly one calculation is made. -/
theorem C110_sscha_partial (ext : List Sscha.Call → Sscha.Call → Option Err) (a : Sscha.Args) :
    (∀ c ∈ (run ext (Sscha.main a)).1, Calculates c → CalculationAsked a c ∧ ∃ s, StructureAsked a s ∧
      (run ext (Sscha.main a)).1 = (a.pot.map .potential).toList ++ [s] ++ (a.bornVasprun.map .nac).toList ++ [c]) ∧
    ((run ext (Sscha.main a)).2 = .ok () → ∃ c ∈ (run ext (Sscha.main a)).1, Calculates c) ∧
    (a.temp = none → a.geometry = true ∨ a.elastic = true → (run ext (Sscha.main a)).2 ≠ .ok () ∧
      ∀ c ∈ (run ext (Sscha.main a)).1, ¬ Calculates c) ∧
    (a.yaml = none → a.poscar = none → (run ext (Sscha.main a)).2 ≠ .ok ()) := by
  have hcalc : (a.temp = none ∧ (a.geometry = true ∨ a.elastic = true) ∧
      Sscha.calculation a = ([], some .runtimeError)) ∨
      ∃ c, CalculationAsked a c ∧ Calculates c ∧ Sscha.calculation a = ([c], none) ∧
        ¬ (a.temp = none ∧ (a.geometry = true ∨ a.elastic = true)) := by
    unfold Sscha.calculation Sscha.geometry Sscha.elastic
    cases hg : a.geometry
    · cases he : a.elastic
      · exact .inr ⟨_, .run hg he (p := !a.disablePrecondition) (by cases a.disablePrecondition <;> simp), trivial, rfl,
          by simp⟩
      · cases ht : a.temp with
        | none => exact .inl ⟨rfl, .inr rfl, rfl⟩
        | some t => exact .inr ⟨_, .elastic he ht, trivial, rfl, by simp⟩
    · cases ht : a.temp with
      | none => exact .inl ⟨rfl, .inl rfl, rfl⟩
      | some t =>
        refine .inr ⟨_, .geometry hg ht (sym := !a.noSymmetry) (cell := !a.fixCell)
          (volume := !a.fixVolume && !a.fixCell) (atoms := !a.fixAtom) ?_ ?_ ?_ ?_, trivial, ?_, by simp⟩
        · cases a.noSymmetry <;> simp
        · cases a.fixCell <;> simp
        · cases a.fixCell <;> cases a.fixVolume <;> simp
        · cases a.fixAtom <;> simp
        · cases a.fixCell <;> cases a.fixVolume <;> rfl
  have hstr : (a.yaml = none ∧ a.poscar = none ∧ Sscha.structure_ a = ([], some .runtimeError)) ∨
      ∃ s, StructureAsked a s ∧ ¬ Calculates s ∧ Sscha.structure_ a = ([s], none) ∧
        ¬ (a.yaml = none ∧ a.poscar = none) := by
    unfold Sscha.structure_
    cases hy : a.yaml with
    | some y => exact .inr ⟨_, .restart hy, by simp [Calculates], rfl, by simp⟩
    | none =>
      cases hp : a.poscar with
      | none => exact .inl ⟨rfl, rfl, rfl⟩
      | some p => exact .inr ⟨_, .poscar hy hp, by simp [Calculates], rfl, by simp⟩
  have hpot : Sscha.potential a = ((a.pot.map Sscha.Call.potential).toList, none) := by
    unfold Sscha.potential
    cases a.pot <;> rfl
  have hnac : Sscha.charges a = ((a.bornVasprun.map Sscha.Call.nac).toList, none) := by
    unfold Sscha.charges
    cases a.bornVasprun <;> rfl
  have npot : ∀ c ∈ (a.pot.map Sscha.Call.potential).toList, ¬ Calculates c := by
    intro c hc
    cases h : a.pot <;> simp [h] at hc
    subst hc
    simp [Calculates]
  have nnac : ∀ c ∈ (a.bornVasprun.map Sscha.Call.nac).toList, ¬ Calculates c := by
    intro c hc
    cases h : a.bornVasprun <;> simp [h] at hc
    subst hc
    simp [Calculates]
  rcases hstr with ⟨hy, hp, hs⟩ | ⟨s, hs, hsn, hse, hsno⟩
  · have he : Sscha.main a = ((a.pot.map Sscha.Call.potential).toList, some .runtimeError) := by
      simp [Sscha.main, andThen, hpot, hs]
    have hno : (run ext (Sscha.main a)).2 ≠ .ok () := fun h => by simpa [he] using (run_ok ext _ h).2
    have hnc : ∀ c ∈ (run ext (Sscha.main a)).1, ¬ Calculates c := fun c hc => by
      have := (run_prefix ext _).subset hc
      rw [he] at this
      exact npot c this
    exact ⟨fun c hc h => absurd h (hnc c hc), fun h => absurd h hno, fun _ _ => ⟨hno, hnc⟩, fun _ _ => hno⟩
  · rcases hcalc with ⟨ht, hm, hc⟩ | ⟨c, hca, hcc, hce, hcno⟩
    · have he : Sscha.main a = ((a.pot.map Sscha.Call.potential).toList ++
          ([s] ++ (a.bornVasprun.map Sscha.Call.nac).toList), some .runtimeError) := by
        simp [Sscha.main, andThen, hpot, hse, hnac, hc]
      have hno : (run ext (Sscha.main a)).2 ≠ .ok () := fun h => by simpa [he] using (run_ok ext _ h).2
      have hnc : ∀ c ∈ (run ext (Sscha.main a)).1, ¬ Calculates c := fun c hc => by
        have := (run_prefix ext _).subset hc
        rw [he] at this
        simp only [List.mem_append, List.mem_singleton] at this
        rcases this with h | rfl | h
        · exact npot c h
        · exact hsn
        · exact nnac c h
      exact ⟨fun c hc h => absurd h (hnc c hc), fun h => absurd h hno, fun _ _ => ⟨hno, hnc⟩,
        fun h1 h2 => absurd ⟨h1, h2⟩ hsno⟩
    · have he : Sscha.main a = (((a.pot.map Sscha.Call.potential).toList ++ [s] ++
          (a.bornVasprun.map Sscha.Call.nac).toList) ++ [c], none) := by
        simp [Sscha.main, andThen, hpot, hse, hnac, hce]
      refine ⟨fun d hd hdc => ?_, fun h => ?_, fun h1 h2 => absurd ⟨h1, h2⟩ hcno, fun h1 h2 => absurd ⟨h1, h2⟩ hsno⟩
      · have hd' := (run_prefix ext _).subset hd
        rw [he] at hd'
        have hdin : d = c := by
          rcases List.mem_append.1 hd' with h | h
          · exfalso
            simp only [List.mem_append, List.mem_singleton] at h
            rcases h with (h | rfl) | h
            · exact npot d h hdc
            · exact hsn hdc
            · exact nnac d h hdc
          · simpa using h
        subst hdin
        refine ⟨hca, s, hs, prefix_last ?_ hd ?_⟩
        · have := run_prefix ext (Sscha.main a)
          simpa [he] using this
        · intro h
          simp only [List.mem_append, List.mem_singleton] at h
          rcases h with (h | rfl) | h
          · exact npot d h hdc
          · exact hsn hdc
          · exact nnac d h hdc
      · refine ⟨c, ?_, hcc⟩
        rw [(run_ok ext _ h).1, he]
        simp

example : (run (fun _ _ => none)
    (Sscha.main { pot := some ["p"], poscar := some "POSCAR", geometry := true, temp := some 300, fixVolume := true })) =
    ([.potential ["p"], .poscar "POSCAR" (2, 2, 2),
      .geometry 300 {} true true false true "BFGS" 0 (1 / 100)], .ok ()) := by decide +kernel

/-- **C110, violation** `--method` is accepted and never used; with `--geometry_optimization --elastic` the elastic
constants are not calculated (findings F187, F188). -/
theorem C110_method_violation :
    (∀ (ext : List Sscha.Call → Sscha.Call → Option Err) a m, run ext (Sscha.main { a with method := m }) =
      run ext (Sscha.main a)) ∧
    ∃ (a : Sscha.Args) (c : Sscha.Call), Calculates c ∧ CalculationAsked a c ∧
      (run (fun _ _ => none) (Sscha.main a)).2 = .ok () ∧ c ∉ (run (fun _ _ => none) (Sscha.main a)).1 :=
  ⟨fun _ _ _ => rfl, { pot := some ["p"], poscar := some "A", geometry := true, elastic := true, temp := some 300 },
    .elastic 300 {} (1 / 100), trivial, .elastic rfl rfl, by decide +kernel, by decide +kernel⟩

/-! ### Molecular dynamics -/

/-- **C110, violation** No command line of `pypolymlp-md` runs a simulation: the size of the supercell is looked up by a
name that no option has, so that every run ends with an exception after the structure is loaded (finding F189). -/
theorem C110_md_violation (ext : List Md.Call → Md.Call → Option Err) (a : Md.Args) (found : String → ℚ → String)
    (dir : String → String) :
    (run ext (Md.main a found dir)).2 ≠ .ok () ∧
    (∀ c ∈ (run ext (Md.main a found dir)).1, (∃ p, c = .load p) ∨ ∃ p, c = .makedirs p a.temp) ∧
    ∀ p, a.poscar = some p → (run (fun _ _ => none) (Md.main a found dir)).2 = .error .attributeError := by
  have hcell : Md.cell a = ([], some .attributeError) := by
    simp [Md.cell, Md.attributes, raise]
  refine ⟨fun h => ?_, fun c hc => ?_, fun p hp => ?_⟩
  · have h2 := (run_ok ext _ h).2
    unfold Md.main at h2
    split at h2
    · simp [raise] at h2
    · split at h2 <;> simp [Md.integration, Md.dynamics, hcell, andThen, calls] at h2
  · have hc := (run_prefix ext _).subset hc
    unfold Md.main at hc
    split at hc
    · simp [raise] at hc
    · split at hc <;> simp [Md.integration, Md.dynamics, hcell, andThen, calls] at hc
      · rcases hc with rfl | rfl
        · exact .inr ⟨_, rfl⟩
        · exact .inl ⟨_, rfl⟩
      · exact .inl ⟨_, hc⟩
  · unfold Md.main
    rw [hp]
    dsimp only
    split <;> simp [Md.integration, Md.dynamics, hcell, andThen, calls, run, exec]

/-! ### Thermodynamics -/

/-- **C110** Every command line of `pypolymlp-thermodynamics` that ends without an exception has compared the two given
phases, or has calculated and saved the properties of all given files; without both it is refused. -/
theorem C110_thermodynamics (ext : List Thermo.Call → Thermo.Call → Option Err) (a : Thermo.Args)
    (h : (run ext (Thermo.main a)).2 = .ok ()) :
    (∃ x y, a.boundary = some (x, y) ∧
      (run ext (Thermo.main a)).1 = [.transition x y, .findTransition, .phaseBoundary]) ∨
    (a.boundary = none ∧ ∃ s, a.sscha = some s ∧ (run ext (Thermo.main a)).1 =
      [.thermo s a.electron a.ti a.electronPhonon a.refFc2, .run, .save "polymlp_thermodynamics"]) := by
  obtain ⟨h1, h2⟩ := run_ok ext _ h
  rw [h1]
  unfold Thermo.main at h2 ⊢
  cases hb : a.boundary with
  | some b => exact .inl ⟨b.1, b.2, rfl, rfl⟩
  | none =>
    refine .inr ⟨rfl, ?_⟩
    cases hs : a.sscha with
    | none => simp [hb, hs, raise] at h2
    | some s => exact ⟨s, rfl, rfl⟩

example : (run (fun _ _ => none) (Thermo.main { sscha := some ["a.yaml"] })).2 = .ok () := by decide +kernel

/-! ### Utilities -/

/-- Apart from symmetry, a job is one call. -/
theorem asked_unique (a : Utils.Args) (c c' : Utils.Call) (h : UtilAsked a c) (h' : UtilAsked a c')
    (hj : jobOf c' = jobOf c) (hs : jobOf c ≠ .symmetry) : c' = c := by
  cases h <;> cases h' <;> first
    | rfl
    | (dsimp only [jobOf] at hj; cases hj; done)
    | exact absurd rfl hs
    | (clear hj hs; simp_all; done)

/-- The calls for symmetry. -/
theorem asked_symmetry (a : Utils.Args) (c : Utils.Call) (h : UtilAsked a c) (hj : jobOf c = .symmetry) :
    c = .symmetry a.poscar a.symprec ∨ (c = .refine ∧ a.refineCell = true) ∨
      (c = .spacegroup ∧ a.spaceGroup = true) := by
  cases h with
  | symmetry h => exact .inl rfl
  | refine h => exact .inr (.inl ⟨rfl, h⟩)
  | spacegroup h => exact .inr (.inr ⟨rfl, h⟩)
  | _ => dsimp only [jobOf] at hj; cases hj

/-- What is left when nothing else is asked for. -/
theorem asked_models (a : Utils.Args) (h1 : a.yamlConverter = none) (h2 : a.electronVasprun = none)
    (h3 : a.vasprunCompress = none) (h4 : a.calcCost = false) (h5 : a.findOptimal = none) (h6 : a.autoDataset = none)
    (hsc : ∀ s, a.supercell = some s → s = []) (hns1 : a.refineCell = false) (hns2 : a.spaceGroup = false)
    (hna1 : a.atomicElements = none) (hna2 : a.atomicFormula = none) (c : Utils.Call) (hc : UtilAsked a c) :
    ∃ e, c = .models e a.hybrid ∧ (a.modelSystem = some e ∨
      a.modelSystem = none ∧ (a.modelElements = some e ∨ a.modelElements = none ∧ a.elements = some e)) := by
  cases hc with
  | supercell h7 h8 h9 => have := hsc _ h8; subst this; simp at h9
  | system h7 h8 => exact ⟨_, rfl, .inl h8⟩
  | models h7 h8 h9 => exact ⟨_, rfl, .inr ⟨h8, .inl h9⟩⟩
  | elements h7 h8 h9 h10 => exact ⟨_, rfl, .inr ⟨h8, .inr ⟨h9, h10⟩⟩⟩
  | convert h => simp [h1] at h
  | electron h => simp [h2] at h
  | compress h => simp [h3] at h
  | cost h => simp [h4] at h
  | costCell h => simp [h4] at h
  | optimal h => simp [h5] at h
  | divide h => simp [h6] at h
  | symmetry h => simp [hns1, hns2] at h
  | refine h => simp [hns1] at h
  | spacegroup h => simp [hns2] at h
  | atomic h => simp [hna1, hna2] at h

/-- **C110** For every command line of `pypolymlp-utils` and whatever its calls raise: every call is one that the
options ask for, except for the enumeration of models; when only one job is asked for and there is no exception, all
that is asked for is done. -/
theorem C110_utils_partial (ext : List Utils.Call → Utils.Call → Option Err) (a : Utils.Args) :
    (∀ c ∈ (run ext (Utils.main a)).1, jobOf c ≠ .models → UtilAsked a c) ∧
    (∀ c ∈ (run ext (Utils.main a)).1, ∀ c' ∈ (run ext (Utils.main a)).1, jobOf c = jobOf c') ∧
    (∀ c ∈ (run ext (Utils.main a)).1, jobOf c = .models → ∀ c', UtilAsked a c' → jobOf c' = .models) ∧
    ((run ext (Utils.main a)).2 = .ok () → OneJob a → ∀ c, UtilAsked a c → c ∈ (run ext (Utils.main a)).1) := by
  suffices key : (∀ c ∈ (Utils.main a).1, jobOf c ≠ .models → UtilAsked a c) ∧
      (∃ j, ∀ c ∈ (Utils.main a).1, jobOf c = j) ∧
      ((∃ c ∈ (Utils.main a).1, jobOf c = .models) → ∀ c', UtilAsked a c' → jobOf c' = .models) ∧
      ((Utils.main a).2 = none → OneJob a → ∀ c, UtilAsked a c → c ∈ (Utils.main a).1) by
    obtain ⟨h1, ⟨j, h2⟩, h3, h4⟩ := key
    have hs := (run_prefix ext (Utils.main a)).subset
    refine ⟨fun c hc => h1 c (hs hc), fun c hc c' hc' => by rw [h2 c (hs hc), h2 c' (hs hc')],
      fun c hc hm => h3 ⟨c, hs hc, hm⟩, fun h ho c hc => ?_⟩
    obtain ⟨e, h0⟩ := run_ok ext _ h
    rw [e]
    exact h4 h0 ho c hc
  have single : ∀ (c : Utils.Call), jobOf c ≠ .models → jobOf c ≠ .symmetry → UtilAsked a c →
      (∀ x ∈ (calls [c] : Line Utils.Call).1, jobOf x ≠ .models → UtilAsked a x) ∧
      (∃ j, ∀ x ∈ (calls [c] : Line Utils.Call).1, jobOf x = j) ∧
      ((∃ x ∈ (calls [c] : Line Utils.Call).1, jobOf x = .models) → ∀ c', UtilAsked a c' → jobOf c' = .models) ∧
      ((calls [c] : Line Utils.Call).2 = none → OneJob a → ∀ x, UtilAsked a x → x ∈ (calls [c] : Line Utils.Call).1) := by
    intro c hn hsy hc
    refine ⟨?_, ⟨jobOf c, ?_⟩, ?_, ?_⟩
    · simp [calls, hc]
    · simp [calls]
    · rintro ⟨x, hx, hxm⟩
      simp [calls] at hx
      subst hx
      exact absurd hxm hn
    · intro _ ho x hx
      simp [calls, asked_unique a c x hc hx (ho x c hx hc) hsy]
  have refused : (∀ x ∈ (raise Err.runtimeError : Line Utils.Call).1, jobOf x ≠ .models → UtilAsked a x) ∧
      (∃ j, ∀ x ∈ (raise Err.runtimeError : Line Utils.Call).1, jobOf x = j) ∧
      ((∃ x ∈ (raise Err.runtimeError : Line Utils.Call).1, jobOf x = .models) →
        ∀ c', UtilAsked a c' → jobOf c' = .models) ∧
      ((raise Err.runtimeError : Line Utils.Call).2 = none → OneJob a → ∀ x, UtilAsked a x →
        x ∈ (raise Err.runtimeError : Line Utils.Call).1) := by
    refine ⟨?_, ⟨.models, ?_⟩, ?_, ?_⟩ <;> simp [raise]
  unfold Utils.main
  cases h1 : a.yamlConverter with
  | some f =>
    exact single _ (by simp [jobOf]) (by simp [jobOf]) (.convert h1)
  | none =>
  cases h2 : a.electronVasprun with
  | some l =>
    exact single _ (by simp [jobOf]) (by simp [jobOf]) (.electron h2)
  | none =>
  cases h3 : a.vasprunCompress with
  | some l =>
    exact single _ (by simp [jobOf]) (by simp [jobOf]) (.compress h3)
  | none =>
  dsimp only
  cases h4 : a.calcCost with
  | true =>
    simp only [if_true]
    unfold Utils.cost
    cases h5 : a.supercell with
    | none =>
      exact single _ (by simp [jobOf]) (by simp [jobOf]) (.cost h4 h5)
    | some s =>
      dsimp only
      split
      · rename_i h6
        exact single _ (by simp [jobOf]) (by simp [jobOf]) (.costCell h4 h5 h6)
      · exact refused
  | false =>
  simp only [Bool.false_eq_true, if_false]
  cases h5 : a.findOptimal with
  | some l =>
    exact single _ (by simp [jobOf]) (by simp [jobOf]) (.optimal h5)
  | none =>
  dsimp only
  unfold Utils.structures
  cases h6 : a.autoDataset with
  | some l =>
    dsimp only
    unfold Utils.divide
    exact single _ (by simp [jobOf]) (by simp [jobOf]) (.divide h6)
  | none =>
  have rest : (∀ s, a.supercell = some s → s = []) → ∀ (p : Line Utils.Call),
      p = (if a.refineCell || a.spaceGroup then Utils.symmetry a
        else if a.atomicElements.isSome || a.atomicFormula.isSome then
          calls [.atomicEnergies a.atomicElements a.atomicFormula a.atomicFunctional]
        else Utils.models a) →
      (∀ x ∈ p.1, jobOf x ≠ .models → UtilAsked a x) ∧ (∃ j, ∀ x ∈ p.1, jobOf x = j) ∧
      ((∃ x ∈ p.1, jobOf x = .models) → ∀ c', UtilAsked a c' → jobOf c' = .models) ∧
      (p.2 = none → OneJob a → ∀ x, UtilAsked a x → x ∈ p.1) := by
    intro hsc p hp
    split at hp
    · rename_i hsym
      have hsym' : a.refineCell = true ∨ a.spaceGroup = true := by simpa using hsym
      subst hp
      unfold Utils.symmetry
      have hjob : ∀ x ∈ (calls ([Utils.Call.symmetry a.poscar a.symprec] ++ (if a.refineCell then [.refine] else []) ++
          (if a.spaceGroup then [.spacegroup] else [])) : Line Utils.Call).1, UtilAsked a x ∧ jobOf x = .symmetry := by
        intro x hx
        simp only [calls, List.mem_append, List.mem_singleton] at hx
        rcases hx with (rfl | hx) | hx
        · exact ⟨.symmetry hsym', rfl⟩
        · split at hx
          · rename_i hr
            simp at hx; subst hx; exact ⟨.refine hr, rfl⟩
          · simp at hx
        · split at hx
          · rename_i hr
            simp at hx; subst hx; exact ⟨.spacegroup hr, rfl⟩
          · simp at hx
      refine ⟨fun x hx _ => (hjob x hx).1, ⟨.symmetry, fun x hx => (hjob x hx).2⟩, ?_, ?_⟩
      · rintro ⟨x, hx, hm⟩
        rw [(hjob x hx).2] at hm
        cases hm
      · intro _ ho x hx
        rcases asked_symmetry a x hx (ho x _ hx (.symmetry hsym')) with rfl | ⟨rfl, h⟩ | ⟨rfl, h⟩ <;> simp [calls]
        · exact h
        · exact h
    · rename_i hns
      have hns1 : a.refineCell = false := by cases h : a.refineCell <;> simp [h] at hns ⊢
      have hns2 : a.spaceGroup = false := by cases h : a.spaceGroup <;> simp [h] at hns ⊢
      split at hp
      · rename_i hat
        have hat' : a.atomicElements ≠ none ∨ a.atomicFormula ≠ none := by
          cases h : a.atomicElements <;> cases h' : a.atomicFormula <;> simp [h, h'] at hat ⊢
        subst hp
        exact single _ (by simp [jobOf]) (by simp [jobOf]) (.atomic hat')
      · rename_i hna
        have hna1 : a.atomicElements = none := by cases h : a.atomicElements <;> simp [h] at hna ⊢
        have hna2 : a.atomicFormula = none := by cases h : a.atomicFormula <;> simp [h] at hna ⊢
        have only := asked_models a h1 h2 h3 h4 h5 h6 hsc hns1 hns2 hna1 hna2
        subst hp
        have many : ∀ e, (∀ c, UtilAsked a c → c = .models e a.hybrid) →
            (∀ x ∈ (calls [.models e a.hybrid] : Line Utils.Call).1, jobOf x ≠ .models → UtilAsked a x) ∧
            (∃ j, ∀ x ∈ (calls [.models e a.hybrid] : Line Utils.Call).1, jobOf x = j) ∧
            ((∃ x ∈ (calls [.models e a.hybrid] : Line Utils.Call).1, jobOf x = .models) →
              ∀ c', UtilAsked a c' → jobOf c' = .models) ∧
            ((calls [.models e a.hybrid] : Line Utils.Call).2 = none → OneJob a → ∀ x, UtilAsked a x →
              x ∈ (calls [.models e a.hybrid] : Line Utils.Call).1) := by
          intro e he
          refine ⟨?_, ⟨.models, ?_⟩, ?_, ?_⟩
          · simp [calls, jobOf]
          · simp [calls, jobOf]
          · intro _ c' hc'
            rw [he c' hc']; rfl
          · intro _ _ x hx
            simp [calls, he x hx]
        unfold Utils.models
        split
        · exact refused
        · rename_i hm0
          cases hm1 : a.modelSystem with
          | some e =>
            refine many e fun c hc => ?_
            obtain ⟨e', rfl, h⟩ := only c hc
            simp [hm1] at h
            rw [h]
          | none =>
            cases hm2 : a.modelElements with
            | some e =>
              refine many e fun c hc => ?_
              obtain ⟨e', rfl, h⟩ := only c hc
              simp [hm1, hm2] at h
              rw [h]
            | none =>
              cases hm3 : a.elements with
              | some e =>
                refine many e fun c hc => ?_
                obtain ⟨e', rfl, h⟩ := only c hc
                simp [hm1, hm2, hm3] at h
                rw [h]
              | none => exact absurd ⟨hm3, hm1⟩ hm0
  cases h7 : a.supercell with
  | none => exact rest (by simp [h7]) _ rfl
  | some s =>
    cases s with
    | nil => exact rest (by simp [h7]) _ rfl
    | cons x s =>
      dsimp only
      unfold Utils.cell
      split
      · rename_i h9
        exact single _ (by simp [jobOf]) (by simp [jobOf]) (.supercell h4 h7 (.inr h9))
      · split
        · rename_i h9
          exact single _ (by simp [jobOf]) (by simp [jobOf]) (.supercell h4 h7 (.inl h9))
        · exact refused

example : OneJob { refineCell := true, spaceGroup := true, poscar := some "POSCAR" } ∧
    (run (fun _ _ => none) (Utils.main { refineCell := true, spaceGroup := true, poscar := some "POSCAR" })).1 =
      [.symmetry (some "POSCAR") (1 / 10000), .refine, .spacegroup] := by
  refine ⟨?_, by decide +kernel⟩
  intro c c' h h'
  have : ∀ c, UtilAsked { refineCell := true, spaceGroup := true, poscar := some "POSCAR" } c → jobOf c = .symmetry := by
    intro c h
    cases h <;> simp_all [jobOf]
  rw [this c h, this c' h']

/-- **C110, violation** Models are enumerated although nobody asked for it, when only `--elements` is given; and
`--generate_models --generate_models_elements` is refused (findings F190, F191). -/
theorem C110_models_violation :
    (∃ a : Utils.Args, a.generateModels = false ∧ (run (fun _ _ => none) (Utils.main a)) =
      ([.models ["Mg"] false], .ok ())) ∧
    ∃ (a : Utils.Args) (c : Utils.Call), UtilAsked a c ∧ OneJob a ∧
      ∀ ext, (run ext (Utils.main a)) = ([], .error .runtimeError) := by
  refine ⟨⟨{ elements := some ["Mg"] }, rfl, by decide +kernel⟩,
    { generateModels := true, modelElements := some ["Mg"] }, .models ["Mg"] false, .models rfl rfl rfl, ?_,
    fun ext => rfl⟩
  intro c c' h h'
  have : ∀ c, UtilAsked { generateModels := true, modelElements := some ["Mg"] } c → jobOf c = .models := by
    intro c h
    cases h <;> simp_all [jobOf]
  rw [this c h, this c' h']

/-- **C110, violation** `--path_string` is accepted and never used (finding F192). -/
theorem C110_path_violation (ext : List Utils.Call → Utils.Call → Option Err) (a : Utils.Args) (p : Option String) :
    run ext (Utils.main { a with pathString := p }) = run ext (Utils.main a) := rfl

end Verif.Commands
