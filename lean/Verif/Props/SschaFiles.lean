import Verif.Spec.SschaFiles
import Verif.Props.YamlData

/-!
# Files of results of SSCHA

What is saved is read again by the two readers.
-/

namespace Verif.SschaFiles
open Verif.Spec Verif.YamlData
open Verif.Vasprun (mapM_iff)

/-! ## The document -/

/-- The document of a calculation. -/
def docOf (plain : ℚ → Bool) (projF : List (V3 ℚ) → List (V3 ℚ)) (projS : M3 ℚ → M3 ℚ) (r : Run) (ex : List (String × Yaml)) :
    List (String × Yaml) :=
  [("parameters", .dict [("pot", .str r.params.pot), ("temperature", write plain r.last.temperature)]),
    ("properties", .dict [("free_energy", write plain r.last.free), ("harmonic_free_energy", write plain r.last.harmonic),
      ("anharmonic_free_energy", write plain r.last.anharmonic), ("static_potential", write plain r.last.static),
      ("entropy", write plain r.last.entropy), ("harmonic_heat_capacity", write plain r.last.heat)]),
    ("properties_eV", .dict [("free_energy", write plain (r.last.free / evToKJ)),
      ("harmonic_free_energy", write plain (r.last.harmonic / evToKJ)),
      ("anharmonic_free_energy", write plain (r.last.anharmonic / evToKJ)),
      ("static_potential", write plain (r.last.static / evToKJ))]),
    ("status", .dict [("delta_fc", writeOpt (write plain) r.last.delta), ("converge", writeOpt .bool r.last.converge),
      ("imaginary", writeOpt .bool r.last.imaginary)]),
    ("unitcell", .dict (cellEntries plain r.params.unitcell.st)),
    ("supercell_matrix", .list [writeInts r.params.matrix.r0, writeInts r.params.matrix.r1, writeInts r.params.matrix.r2]),
    ("supercell", .dict (cellEntries plain r.params.supercell.st ++ ex)),
    ("average_forces", writeForces plain r.last.averageForces),
    ("average_stress_tensor", writeStress plain r.last.averageStress),
    ("total_forces", writeForces plain (addForces r.last.averageForces r.last.staticForces)),
    ("total_stress_tensor", writeStress plain fun i => r.last.averageStress i + r.last.staticStress i)] ++
    (if r.sym then symEntries plain projF projS r.params r.last else []) ++
    [("logs", .dict [("free_energy", .list ((r.before ++ [r.last]).map fun e => write plain e.free))])]

theorem save_eq (plain : ℚ → Bool) (projF : List (V3 ℚ) → List (V3 ℚ)) (projS : M3 ℚ → M3 ℚ) (r : Run)
    {ex : List (String × Yaml)} (he : superEntries r.params.supercell = .ok ex) :
    save plain projF projS r.params (r.before ++ [r.last]) r.sym = .ok (docOf plain projF projS r ex) := by
  have h1 : saveCell plain r.params.unitcell "unitcell" = .ok ("unitcell", .dict (cellEntries plain r.params.unitcell.st)) :=
    saveCell_tag (by decide)
  have h2 : saveCell plain r.params.supercell "supercell" =
      .ok ("supercell", .dict (cellEntries plain r.params.supercell.st ++ ex)) := by
    simp [saveCell, he, bind, Except.bind, pure, Except.pure]
  simp only [save, List.getLast?_append, List.getLast?_singleton, Option.some_or, orErr, bind, Except.bind, h1, h2, pure,
    Except.pure, docOf]

theorem super_ok {c : Cell} (h : c.matrix ≠ none) : ∃ ex, superEntries c = .ok ex := by
  cases hm : c.matrix with
  | none => exact absurd hm h
  | some m => simp [superEntries, hm, orErr, bind, Except.bind, pure, Except.pure]

section entries
variable (plain : ℚ → Bool) (projF : List (V3 ℚ) → List (V3 ℚ)) (projS : M3 ℚ → M3 ℚ) (r : Run) (ex : List (String × Yaml))

theorem entry_of {k : String} {y : Yaml} (h : get (docOf plain projF projS r ex) k = .ok y) :
    HasEntry (docOf plain projF projS r ex) k y := get_iff.mp h

theorem get_properties : get (docOf plain projF projS r ex) "properties" =
    .ok (.dict [("free_energy", write plain r.last.free), ("harmonic_free_energy", write plain r.last.harmonic),
      ("anharmonic_free_energy", write plain r.last.anharmonic), ("static_potential", write plain r.last.static),
      ("entropy", write plain r.last.entropy), ("harmonic_heat_capacity", write plain r.last.heat)]) := by
  unfold docOf
  cases r.sym <;> rfl

theorem get_parameters : get (docOf plain projF projS r ex) "parameters" =
    .ok (.dict [("pot", .str r.params.pot), ("temperature", write plain r.last.temperature)]) := by
  unfold docOf
  cases r.sym <;> rfl

theorem get_status : get (docOf plain projF projS r ex) "status" =
    .ok (.dict [("delta_fc", writeOpt (write plain) r.last.delta), ("converge", writeOpt .bool r.last.converge),
      ("imaginary", writeOpt .bool r.last.imaginary)]) := by
  unfold docOf
  cases r.sym <;> rfl

theorem get_unitcell : get (docOf plain projF projS r ex) "unitcell" = .ok (.dict (cellEntries plain r.params.unitcell.st)) := by
  unfold docOf
  cases r.sym <;> rfl

theorem get_matrix : get (docOf plain projF projS r ex) "supercell_matrix" =
    .ok (.list [writeInts r.params.matrix.r0, writeInts r.params.matrix.r1, writeInts r.params.matrix.r2]) := by
  unfold docOf
  cases r.sym <;> rfl

theorem get_supercell : get (docOf plain projF projS r ex) "supercell" =
    .ok (.dict (cellEntries plain r.params.supercell.st ++ ex)) := by
  unfold docOf
  cases r.sym <;> rfl

theorem get_forces : get (docOf plain projF projS r ex) "average_forces" = .ok (writeForces plain r.last.averageForces) := by
  unfold docOf
  cases r.sym <;> rfl

theorem get_stress : get (docOf plain projF projS r ex) "average_stress_tensor" =
    .ok (writeStress plain r.last.averageStress) := by
  unfold docOf
  cases r.sym <;> rfl

theorem get_logs : get (docOf plain projF projS r ex) "logs" =
    .ok (.dict [("free_energy", .list ((r.before ++ [r.last]).map fun e => write plain e.free))]) := by
  unfold docOf
  cases r.sym <;> rfl

theorem has_sym : has (docOf plain projF projS r ex) "symmetrized_average_forces" = r.sym := by
  unfold docOf
  cases r.sym <;> rfl

theorem get_sym (h : r.sym = true) :
    get (docOf plain projF projS r ex) "symmetrized_average_forces" = .ok (writeForces plain
      (symmetrize projF projS r.params.nUnitcells r.last.averageForces r.last.averageStress).1) ∧
    get (docOf plain projF projS r ex) "symmetrized_average_stress_tensor" = .ok (writeStress plain
      (symmetrize projF projS r.params.nUnitcells r.last.averageForces r.last.averageStress).2) := by
  unfold docOf
  rw [h]
  exact ⟨rfl, rfl⟩

end entries

/-! ## Arrays -/

theorem nth_range {α : Type} (l : List α) (n : ℕ) (hn : 0 < n) (m : ℕ) :
    ((List.range m).filterMap fun (i : ℕ) => if i % n = 0 then l[i]? else none) =
      (List.range ((m + n - 1) / n)).filterMap fun (k : ℕ) => l[k * n]? := by
  induction m with
  | zero =>
    have : (0 + n - 1) / n = 0 := Nat.div_eq_of_lt (by omega)
    rw [this]
    rfl
  | succ m ih =>
    rw [List.range_succ, List.filterMap_append, ih]
    have e1 : m + 1 + n - 1 = m + n := by omega
    rw [e1, Nat.add_div_right _ hn]
    by_cases hm : m % n = 0
    · have hq : n * (m / n) = m := Nat.mul_div_cancel' (Nat.dvd_of_mod_eq_zero hm)
      have e2 : (m + n - 1) / n = m / n := by
        apply Nat.div_eq_of_lt_le
        · rw [Nat.mul_comm, hq]; omega
        · rw [Nat.succ_mul, Nat.mul_comm, hq]; omega
      rw [e2, List.range_succ, List.filterMap_append]
      congr 1
      have e3 : m / n * n = m := by rw [Nat.mul_comm]; exact hq
      simp only [List.filterMap_cons, List.filterMap_nil, hm, if_true, e3]
    · have e2 : (m + n - 1) / n = m / n + 1 := by
        have hd := Nat.div_add_mod m n
        have hlt := Nat.mod_lt m hn
        apply Nat.div_eq_of_lt_le
        · rw [Nat.add_mul, Nat.mul_comm]; omega
        · rw [Nat.succ_mul, Nat.add_mul, Nat.mul_comm]; omega
      rw [e2]
      simp [hm]

theorem everyNth_get {α : Type} (l : List α) (n : ℕ) (hn : 0 < n) (k : ℕ) : (everyNth n l)[k]? = l[k * n]? := by
  unfold everyNth
  rw [nth_range l n hn]
  have hall : ∀ c, c ≤ (l.length + n - 1) / n → ∀ k : ℕ, ((List.range c).filterMap fun (k : ℕ) => l[k * n]?)[k]? =
      if k < c then l[k * n]? else none := by
    intro c
    induction c with
    | zero => intro _ k; simp
    | succ c ih =>
      intro hc k
      have hlt : c * n < l.length := by
        have := Nat.mul_le_of_le_div n _ _ hc
        rw [Nat.add_mul] at this
        omega
      have hsome : l[c * n]? = some l[c * n] := List.getElem?_eq_getElem hlt
      have hlen : ∀ c', c' ≤ c → ((List.range c').filterMap fun (k : ℕ) => l[k * n]?).length = c' := by
        intro c'
        induction c' with
        | zero => intro _; rfl
        | succ c' ih' =>
          intro h
          have h2 : c' * n < l.length := lt_of_le_of_lt (Nat.mul_le_mul_right n (by omega)) hlt
          rw [List.range_succ, List.filterMap_append, List.length_append, ih' (by omega)]
          simp [List.getElem?_eq_getElem h2]
      rw [List.range_succ, List.filterMap_append]
      by_cases hk : k < c
      · rw [List.getElem?_append_left (by rw [hlen c le_rfl]; exact hk), ih (by omega) k, if_pos hk, if_pos (by omega)]
      · rw [List.getElem?_append_right (by rw [hlen c le_rfl]; omega), hlen c le_rfl]
        by_cases hk2 : k = c
        · subst hk2
          simp [hsome]
        · rw [if_neg (by omega)]
          have : 1 ≤ k - c := by omega
          simp [hsome, List.getElem?_eq_none, this]
  rw [hall _ le_rfl]
  by_cases hk : k < (l.length + n - 1) / n
  · rw [if_pos hk]
  · rw [if_neg hk, List.getElem?_eq_none]
    have h1 : (l.length + n - 1) / n ≤ k := by omega
    have h2 : l.length + n - 1 < (k + 1) * n := by
      have := (Nat.div_lt_iff_lt_mul hn).mp (Nat.lt_succ_of_le h1)
      exact this
    rw [Nat.succ_mul] at h2
    omega

theorem sym_spec (projF : List (V3 ℚ) → List (V3 ℚ)) (projS : M3 ℚ → M3 ℚ) (r : Run) (hn : 0 < r.params.nUnitcells) :
    SymOf projF projS r (symmetrize projF projS r.params.nUnitcells r.last.averageForces r.last.averageStress).1
      (symmetrize projF projS r.params.nUnitcells r.last.averageForces r.last.averageStress).2 := by
  refine ⟨fun k => everyNth_get _ _ hn k, ?_⟩
  rintro t rfl
  exact ⟨rfl, rfl, rfl, rfl, rfl, rfl⟩

/-- A stress tensor that was written. -/
def tens (plain : ℚ → Bool) (s : Fin 6 → ℚ) : M3 Yaml :=
  ⟨⟨write plain (s 0), write plain (s 3), write plain (s 5)⟩, ⟨write plain (s 3), write plain (s 1), write plain (s 4)⟩,
    ⟨write plain (s 5), write plain (s 4), write plain (s 2)⟩⟩

theorem array33_write (plain : ℚ → Bool) (s : Fin 6 → ℚ) : array33 (writeStress plain s) = .ok (tens plain s) := rfl

theorem tens_plain {plain : ℚ → Bool} {s : Fin 6 → ℚ} (h : ∀ i, plain (s i) = true) : IsTensor (tens plain s) s := by
  have h' := fun i => write_plain (h i)
  exact ⟨⟨h' 0, h' 3, h' 5⟩, ⟨h' 3, h' 1, h' 4⟩, h' 5, h' 4, h' 2⟩

theorem times33_plain {plain : ℚ → Bool} {s : Fin 6 → ℚ} (n : ℕ) (h : ∀ i, plain (s i) = true) :
    ∃ t, times33 n (tens plain s) = .ok t ∧ IsTensor t fun i => s i * n := by
  have h' := fun i => write_plain (h i)
  refine ⟨⟨⟨.num (s 0 * n), .num (s 3 * n), .num (s 5 * n)⟩, ⟨.num (s 3 * n), .num (s 1 * n), .num (s 4 * n)⟩,
    ⟨.num (s 5 * n), .num (s 4 * n), .num (s 2 * n)⟩⟩, ?_, ⟨rfl, rfl, rfl⟩, ⟨rfl, rfl, rfl⟩, rfl, rfl, rfl⟩
  simp [times33, times3, tens, h', times, bind, Except.bind, pure, Except.pure]

theorem ev_eq : evToKJ = eVinKJ := by unfold evToKJ eVinKJ; norm_num

theorem ev_ne : evToKJ ≠ 0 := by unfold evToKJ; norm_num

/-! ## Data sets -/

theorem super_get {c : Cell} {n : ℕ} {plain : ℚ → Bool} {ex : List (String × Yaml)} (he : superEntries c = .ok ex)
    (hn : c.nUnitcells = some n) : get (cellEntries plain c.st ++ ex) "n_unitcells" = .ok (.num n) := by
  cases hm : c.matrix with
  | none => simp [superEntries, hm, orErr, bind, Except.bind] at he
  | some m =>
    simp only [superEntries, hm, hn, orErr, bind, Except.bind, pure, Except.pure, Option.elim_some, List.singleton_append,
      Except.ok.injEq] at he
    subst he
    rfl

/-- Conditions on a calculation: valid cells, a supercell of `n` unit cells. -/
def GoodRun (r : Run) (n : ℕ) : Prop :=
  ValidCell r.params.unitcell ∧ ValidCell r.params.supercell ∧ r.params.supercell.matrix ≠ none ∧
    r.params.supercell.nUnitcells = some n ∧ 0 < r.params.nUnitcells

theorem record_of (plain : ℚ → Bool) (projF : List (V3 ℚ) → List (V3 ℚ)) (projS : M3 ℚ → M3 ℚ) (symmetrized : Bool) (r : Run)
    (n : ℕ) (ex : List (String × Yaml)) (he : superEntries r.params.supercell = .ok ex) (hg : GoodRun r n)
    (hp : PlainArrays plain r.last.averageForces r.last.averageStress)
    (hs : ∀ f s, SymOf projF projS r f s → PlainArrays plain f s) :
    ∃ x, getProperties r.name (docOf plain projF projS r ex) symmetrized = .ok x ∧
      RunRecord projF projS symmetrized r n x := by
  obtain ⟨hu, hsu, hm, hnu, hpos⟩ := hg
  have hf : get [("free_energy", write plain r.last.free), ("harmonic_free_energy", write plain r.last.harmonic),
      ("anharmonic_free_energy", write plain r.last.anharmonic), ("static_potential", write plain r.last.static),
      ("entropy", write plain r.last.entropy), ("harmonic_heat_capacity", write plain r.last.heat)] "free_energy" =
      .ok (write plain r.last.free) := rfl
  unfold getProperties
  simp only [get_properties, bind, Except.bind, asDict, hf, asFloat_write, has_sym]
  by_cases hb : (symmetrized && r.sym) = true
  · rw [if_pos hb]
    rw [Bool.and_eq_true] at hb
    obtain ⟨h1, h2⟩ := get_sym plain projF projS r ex hb.2
    have h3 := load_saved_plain plain r.params.unitcell "unitcell" _ hu (get_iff.mp (get_unitcell plain projF projS r ex))
    simp only [h1, h2, h3, writeForces, asList, rows_of, array33_write, pure, Except.pure]
    have hso := sym_spec projF projS r hpos
    refine ⟨_, rfl, rfl, fun _ => ⟨⟨rfl, rfl, rfl, rfl, rfl, rfl⟩, ?_, _, _, hso, forces_plain (hs _ _ hso).1,
      tens_plain (hs _ _ hso).2⟩, ?_⟩
    · rw [← ev_eq]; exact div_mul_cancel₀ _ ev_ne
    · rintro (h | h)
      · rw [hb.1] at h; cases h
      · rw [hb.2] at h; cases h
  · rw [if_neg hb]
    obtain ⟨m, hm'⟩ := Option.ne_none_iff_exists'.mp hm
    obtain ⟨h3, -⟩ := load_saved_super plain r.params.supercell m _ "supercell" hsu ex hm' he
      (get_iff.mp (get_supercell plain projF projS r ex))
    have h4 := super_get (plain := plain) he hnu
    obtain ⟨t, ht1, ht2⟩ := times33_plain n hp.2
    simp only [h3, get_supercell, asDict, h4, asNat_num, get_forces, get_stress, writeForces, asList, rows_of, array33_write,
      ht1, pure, Except.pure]
    refine ⟨_, rfl, rfl, ?_, fun _ => ⟨⟨rfl, rfl, rfl, rfl, rfl, rfl⟩, ?_, forces_plain hp.1, ht2⟩⟩
    · rintro ⟨h, h'⟩
      exact absurd (by simp [h, h']) hb
    · rw [← ev_eq]; exact div_mul_cancel₀ _ ev_ne

theorem parseFile_doc (plain : ℚ → Bool) (projF : List (V3 ℚ) → List (V3 ℚ)) (projS : M3 ℚ → M3 ℚ) (symmetrized : Bool)
    (r : Run) (ex : List (String × Yaml)) :
    parseFile symmetrized (r.name, docOf plain projF projS r ex) =
      if r.last.converge = some false then .ok none
      else (getProperties r.name (docOf plain projF projS r ex) symmetrized).map some := by
  have hc : get [("delta_fc", writeOpt (write plain) r.last.delta), ("converge", writeOpt .bool r.last.converge),
      ("imaginary", writeOpt .bool r.last.imaginary)] "converge" = .ok (writeOpt .bool r.last.converge) := rfl
  unfold parseFile
  simp only [get_status, bind, Except.bind, asDict, hc, has_of_entry (get_iff.mp (get_supercell plain projF projS r ex)),
    has_of_entry (get_iff.mp (get_forces plain projF projS r ex)), has_of_entry (get_iff.mp (get_stress plain projF projS r ex)),
    Bool.true_eq_false, if_false, pure, Except.pure]
  cases hcv : r.last.converge with
  | none => cases getProperties r.name (docOf plain projF projS r ex) symmetrized <;> rfl
  | some b =>
    cases b with
    | false => rfl
    | true => cases getProperties r.name (docOf plain projF projS r ex) symmetrized <;> rfl

/-- C87: a list of saved calculations is read to the records of those that converged, in order: symmetrized properties of
the unit cell, or properties of the supercell, with free energies in eV per cell. -/
theorem C87_dataset_partial (plain : ℚ → Bool) (projF : List (V3 ℚ) → List (V3 ℚ)) (projS : M3 ℚ → M3 ℚ) (symmetrized : Bool)
    (runs : List (Run × ℕ)) (hg : ∀ r ∈ runs, GoodRun r.1 r.2)
    (hp : ∀ r ∈ runs, PlainArrays plain r.1.last.averageForces r.1.last.averageStress ∧
      ∀ f s, SymOf projF projS r.1 f s → PlainArrays plain f s)
    (hc : ∀ r ∈ runs, r.1.last.converge ≠ none) :
    ∃ files recs, List.Forall₂ (fun (r : Run × ℕ) f => f.1 = r.1.name ∧
        save plain projF projS r.1.params (r.1.before ++ [r.1.last]) r.1.sym = .ok f.2) runs files ∧
      parse symmetrized files = .ok recs ∧
      List.Forall₂ (fun (r : Run × ℕ) x => RunRecord projF projS symmetrized r.1 r.2 x)
        (runs.filter fun r => decide (r.1.last.converge = some true)) recs := by
  have key : ∃ files res, List.Forall₂ (fun (r : Run × ℕ) f => f.1 = r.1.name ∧
        save plain projF projS r.1.params (r.1.before ++ [r.1.last]) r.1.sym = .ok f.2) runs files ∧
      files.mapM (parseFile symmetrized) = .ok res ∧
      List.Forall₂ (fun (r : Run × ℕ) x => RunRecord projF projS symmetrized r.1 r.2 x)
        (runs.filter fun r => decide (r.1.last.converge = some true)) (res.filterMap id) := by
    induction runs with
    | nil => exact ⟨[], [], .nil, rfl, .nil⟩
    | cons r runs ih =>
      obtain ⟨files, res, h1, h2, h3⟩ := ih (fun r hr => hg r (List.mem_cons_of_mem _ hr))
        (fun r hr => hp r (List.mem_cons_of_mem _ hr)) (fun r hr => hc r (List.mem_cons_of_mem _ hr))
      have hg' := hg r List.mem_cons_self
      have hp' := hp r List.mem_cons_self
      have hc' := hc r List.mem_cons_self
      obtain ⟨ex, hex⟩ := super_ok hg'.2.2.1
      obtain ⟨x, hx1, hx2⟩ := record_of plain projF projS symmetrized r.1 r.2 ex hex hg' hp'.1 hp'.2
      have hpf := parseFile_doc plain projF projS symmetrized r.1 ex
      rw [hx1] at hpf
      obtain ⟨b, hb⟩ := Option.ne_none_iff_exists'.mp hc'
      cases b with
      | false =>
        rw [hb, if_pos rfl] at hpf
        refine ⟨(r.1.name, docOf plain projF projS r.1 ex) :: files, none :: res,
          .cons ⟨rfl, save_eq plain projF projS r.1 hex⟩ h1, ?_, ?_⟩
        · rw [List.mapM_cons, hpf, h2]; rfl
        · rw [List.filter_cons, if_neg (by simp [hb])]
          exact h3
      | true =>
        rw [hb, if_neg (by simp)] at hpf
        refine ⟨(r.1.name, docOf plain projF projS r.1 ex) :: files, some x :: res,
          .cons ⟨rfl, save_eq plain projF projS r.1 hex⟩ h1, ?_, ?_⟩
        · rw [List.mapM_cons, hpf, h2]; rfl
        · rw [List.filter_cons, if_pos (by simp [hb])]
          exact .cons hx2 h3
  obtain ⟨files, res, h1, h2, h3⟩ := key
  refine ⟨files, res.filterMap id, h1, ?_, h3⟩
  simp only [parse, h2, bind, Except.bind, pure, Except.pure]

/-- C87: saving fails exactly if there is no iteration or the supercell has no matrix. -/
theorem C87_save_error (plain : ℚ → Bool) (projF : List (V3 ℚ) → List (V3 ℚ)) (projS : M3 ℚ → M3 ℚ) (p : Params)
    (log : List Data) (sym : Bool) :
    (∃ e, save plain projF projS p log sym = .error e) ↔ log = [] ∨ p.supercell.matrix = none := by
  have h1 : saveCell plain p.unitcell "unitcell" = .ok ("unitcell", .dict (cellEntries plain p.unitcell.st)) :=
    saveCell_tag (by decide)
  cases hl : log.getLast? with
  | none =>
    have : log = [] := by simpa using hl
    simp [save, hl, orErr, bind, Except.bind, this]
  | some d =>
    have hne : log ≠ [] := by rintro rfl; simp at hl
    cases hm : p.supercell.matrix with
    | none =>
      have h2 : saveCell plain p.supercell "supercell" = .error .typeError := by
        simp [saveCell, superEntries, hm, orErr, bind, Except.bind]
      simp [save, hl, h1, h2, orErr, bind, Except.bind]
    | some m =>
      obtain ⟨ex, hex⟩ := super_ok (c := p.supercell) (by rw [hm]; simp)
      have h2 : saveCell plain p.supercell "supercell" = .ok ("supercell", .dict (cellEntries plain p.supercell.st ++ ex)) := by
        simp [saveCell, hex, bind, Except.bind, pure, Except.pure]
      simp [save, hl, h1, h2, orErr, bind, Except.bind, pure, Except.pure, hne]

/-- C87: the split by imaginary frequencies keeps the order; every file is in exactly one of the lists, and an empty list is
None. -/
theorem C87_split (plain : ℚ → Bool) (projF : List (V3 ℚ) → List (V3 ℚ)) (projS : M3 ℚ → M3 ℚ) (runs : List (Run × Bool))
    (hm : ∀ r ∈ runs, r.1.params.supercell.matrix ≠ none) (hi : ∀ r ∈ runs, r.1.last.imaginary = some r.2) :
    ∃ files no yes, List.Forall₂ (fun (r : Run × Bool) f => f.1 = r.1.name ∧
        save plain projF projS r.1.params (r.1.before ++ [r.1.last]) r.1.sym = .ok f.2) runs files ∧
      splitImaginary files = .ok (no, yes) ∧
      no.getD [] = (runs.filter fun r => !r.2).map (fun r => r.1.name) ∧
      yes.getD [] = (runs.filter fun r => r.2).map (fun r => r.1.name) ∧
      no ≠ some [] ∧ yes ≠ some [] := by
  have key : ∃ files, List.Forall₂ (fun (r : Run × Bool) f => f.1 = r.1.name ∧
        save plain projF projS r.1.params (r.1.before ++ [r.1.last]) r.1.sym = .ok f.2) runs files ∧
      (files.mapM fun (f : String × List (String × Yaml)) => (do
        let s ← get f.2 "status"
        let sd ← asDict s
        let i ← get sd "imaginary"
        return (f.1, truthy i) : Except Err (String × Bool))) = .ok (runs.map fun r => (r.1.name, r.2)) := by
    induction runs with
    | nil => exact ⟨[], .nil, rfl⟩
    | cons r runs ih =>
      obtain ⟨files, h1, h2⟩ := ih (fun r hr => hm r (List.mem_cons_of_mem _ hr)) (fun r hr => hi r (List.mem_cons_of_mem _ hr))
      obtain ⟨ex, hex⟩ := super_ok (hm r List.mem_cons_self)
      have hc : get [("delta_fc", writeOpt (write plain) r.1.last.delta), ("converge", writeOpt .bool r.1.last.converge),
        ("imaginary", writeOpt .bool r.1.last.imaginary)] "imaginary" = .ok (.bool r.2) := by
        rw [hi r List.mem_cons_self]; rfl
      refine ⟨(r.1.name, docOf plain projF projS r.1 ex) :: files, .cons ⟨rfl, save_eq plain projF projS r.1 hex⟩ h1, ?_⟩
      rw [List.mapM_cons, h2]
      simp only [get_status, asDict, bind, Except.bind, hc, truthy, pure, Except.pure, List.map_cons]
  obtain ⟨files, h1, h2⟩ := key
  refine ⟨files, if ((runs.filter fun r => !r.2).map (fun r => r.1.name)).length = 0 then none else
    some ((runs.filter fun r => !r.2).map (fun r => r.1.name)),
    if ((runs.filter fun r => r.2).map (fun r => r.1.name)).length = 0 then none else
      some ((runs.filter fun r => r.2).map (fun r => r.1.name)), h1, ?_, ?_, ?_, ?_, ?_⟩
  · have e1 : (((runs.map fun r => (r.1.name, r.2)).filter fun p => !p.2).map (·.1)) =
        (runs.filter fun r => !r.2).map (fun r => r.1.name) := by
      rw [List.filter_map, List.map_map]; rfl
    have e2 : (((runs.map fun r => (r.1.name, r.2)).filter fun p => p.2).map (·.1)) =
        (runs.filter fun r => r.2).map (fun r => r.1.name) := by
      rw [List.filter_map, List.map_map]; rfl
    simp only [splitImaginary]
    rw [h2]
    simp only [bind, Except.bind, pure, Except.pure, e1, e2]
  · split
    · rename_i h; rw [List.length_eq_zero_iff.mp h]; rfl
    · rfl
  · split
    · rename_i h; rw [List.length_eq_zero_iff.mp h]; rfl
    · rfl
  · split
    · simp
    · rename_i h
      intro h'
      rw [Option.some.injEq] at h'
      rw [h'] at h
      exact h rfl
  · split
    · simp
    · rename_i h
      intro h'
      rw [Option.some.injEq] at h'
      rw [h'] at h
      exact h rfl

/-! ## Restart -/

theorem factors_unit {u : String} (h : KnownUnit u) (n : ℕ) : ∃ f, factors u n = .ok f := by
  rcases h with rfl | rfl | rfl <;> exact ⟨_, rfl⟩

theorem factors_no {u : String} (h : ¬ KnownUnit u) (n : ℕ) : factors u n = .error .runtimeError := by
  unfold KnownUnit at h
  push Not at h
  simp [factors, h.1, h.2.1, h.2.2]

theorem energyIn_factors {u : String} {n : ℕ} {f : ℚ × ℚ × ℚ} (hn : 0 < n) (h : factors u n = .ok f) (x : ℚ) :
    EnergyUnit u n x (x * f.1) ∧ EntropyUnit u n x (x * f.2.1) ∧ VolumeUnit u n x (x * f.2.2) := by
  have hn' : (n : ℚ) ≠ 0 := by exact_mod_cast hn.ne'
  have he : eVinKJ ≠ 0 := by rw [← ev_eq]; exact ev_ne
  unfold factors at h
  rw [ev_eq] at h
  unfold EnergyUnit EntropyUnit VolumeUnit
  split at h
  · rename_i hu
    subst hu
    cases h
    simp
  split at h
  · rename_i hu
    subst hu
    cases h
    refine ⟨⟨by simp, fun _ => ?_, by simp⟩, ⟨by simp, fun _ => ?_, by simp⟩, by simp⟩ <;> field_simp
  split at h
  · rename_i hu
    subst hu
    cases h
    refine ⟨⟨by simp, by simp, fun _ => ?_⟩, ⟨by simp, by simp, fun _ => ?_⟩, by simp, by simp, fun _ => ?_⟩ <;> field_simp
  · cases h

/-- Everything but the unit is the same. -/
def SameFile (a b : Restart) : Prop :=
  a.pot = b.pot ∧ a.temperature = b.temperature ∧ a.static = b.static ∧ a.harmonic = b.harmonic ∧
    a.anharmonic = b.anharmonic ∧ a.free = b.free ∧ a.entropy = b.entropy ∧ a.heat = b.heat ∧ a.delta = b.delta ∧
    a.converge = b.converge ∧ a.imaginary = b.imaginary ∧ a.unitcell = b.unitcell ∧ a.matrix = b.matrix ∧ a.volume = b.volume

theorem setUnit_same (r : Restart) (u : String) : SameFile (setUnit r u).1 r := by
  unfold setUnit
  cases factors u r.unitcell.st.elements.length <;>
    exact ⟨rfl, rfl, rfl, rfl, rfl, rfl, rfl, rfl, rfl, rfl, rfl, rfl, rfl, rfl⟩

theorem SameFile.trans {a b c : Restart} (h : SameFile a b) (h' : SameFile b c) : SameFile a c := by
  obtain ⟨a1, a2, a3, a4, a5, a6, a7, a8, a9, a10, a11, a12, a13, a14⟩ := h
  obtain ⟨b1, b2, b3, b4, b5, b6, b7, b8, b9, b10, b11, b12, b13, b14⟩ := h'
  exact ⟨a1.trans b1, a2.trans b2, a3.trans b3, a4.trans b4, a5.trans b5, a6.trans b6, a7.trans b7, a8.trans b8,
    a9.trans b9, a10.trans b10, a11.trans b11, a12.trans b12, a13.trans b13, a14.trans b14⟩

theorem units_history (r : Restart) (u : String) (hu : factors u r.unitcell.st.elements.length =
    .ok (r.unitEnergy, r.unitEntropy, r.unitVolume)) (us : List String) :
    SameFile (us.foldl (fun r u => (setUnit r u).1) r) r ∧
    factors (lastUnit u us) r.unitcell.st.elements.length = .ok ((us.foldl (fun r u => (setUnit r u).1) r).unitEnergy,
      (us.foldl (fun r u => (setUnit r u).1) r).unitEntropy, (us.foldl (fun r u => (setUnit r u).1) r).unitVolume) := by
  induction us using List.reverseRecOn with
  | nil => exact ⟨⟨rfl, rfl, rfl, rfl, rfl, rfl, rfl, rfl, rfl, rfl, rfl, rfl, rfl, rfl⟩, hu⟩
  | append_singleton us v ih =>
    rw [List.foldl_append]
    simp only [List.foldl_cons, List.foldl_nil]
    generalize us.foldl (fun r u => (setUnit r u).1) r = r' at ih ⊢
    refine ⟨(setUnit_same r' v).trans ih.1, ?_⟩
    have hc : r'.unitcell = r.unitcell := ih.1.2.2.2.2.2.2.2.2.2.2.2.1
    unfold lastUnit at ih ⊢
    rw [List.filter_append]
    by_cases hv : KnownUnit v
    · obtain ⟨f, hf⟩ := factors_unit hv r.unitcell.st.elements.length
      have : ([v].filter fun x => decide (KnownUnit x)) = [v] := by simp [hv]
      rw [this, List.getLast?_append]
      simp only [List.getLast?_singleton, Option.some_or, Option.getD_some]
      unfold setUnit
      rw [hc, hf]
    · have : ([v].filter fun x => decide (KnownUnit x)) = [] := by simp [hv]
      rw [this, List.append_nil]
      unfold setUnit
      rw [hc, factors_no hv]
      exact ih.2

/-- The opened calculation. -/
def openOf (plain : ℚ → Bool) (r : Run) (u : String) (f : ℚ × ℚ × ℚ) : Restart :=
  ⟨.str r.params.pot, u, f.1, f.2.1, f.2.2, write plain r.last.temperature,
    write plain r.last.static, some (write plain r.last.harmonic), some (write plain r.last.anharmonic),
    write plain r.last.free, write plain r.last.entropy, write plain r.last.heat, writeOpt (write plain) r.last.delta,
    writeOpt .bool r.last.converge, writeOpt .bool r.last.imaginary, readBack r.params.unitcell none none, r.params.matrix,
    r.params.unitcell.st.axis.det⟩

theorem open_doc (plain : ℚ → Bool) (projF : List (V3 ℚ) → List (V3 ℚ)) (projS : M3 ℚ → M3 ℚ) (r : Run) (ex : List (String × Yaml))
    (hu : ValidCell r.params.unitcell) (u : String) (f : ℚ × ℚ × ℚ) (hf : factors u r.params.unitcell.st.elements.length = .ok f) :
    open' (docOf plain projF projS r ex) none u = .ok (openOf plain r u f) := by
  have h3 := load_saved_plain plain r.params.unitcell "unitcell" _ hu (get_iff.mp (get_unitcell plain projF projS r ex))
  have h4 : intMatrix (.list [writeInts r.params.matrix.r0, writeInts r.params.matrix.r1, writeInts r.params.matrix.r2]) =
      .ok r.params.matrix := by
    have : [writeInts r.params.matrix.r0, writeInts r.params.matrix.r1, writeInts r.params.matrix.r2].mapM ints3 =
      .ok [r.params.matrix.r0, r.params.matrix.r1, r.params.matrix.r2] :=
      mapM_map_id ints3_writeInts [r.params.matrix.r0, r.params.matrix.r1, r.params.matrix.r2]
    simp [intMatrix, asList, this, three, bind, Except.bind]
  have hf' : factors u (readBack r.params.unitcell none none).st.elements.length = .ok f := hf
  unfold open'
  simp only [get_parameters, get_properties, get_status, get_logs, get_matrix, bind, Except.bind, asDict, h3, h4, hf',
    Option.elim_none, pure, Except.pure]
  rfl

/-- C87: a saved calculation is opened with its values; after any history of settings of the unit, values are given in the
last valid unit; cell and matrix are the saved ones. -/
theorem C87_restart_partial (plain : ℚ → Bool) (projF : List (V3 ℚ) → List (V3 ℚ)) (projS : M3 ℚ → M3 ℚ) (r : Run) (n : ℕ)
    (hg : GoodRun r n) (hne : r.params.unitcell.st.elements ≠ []) (hp : PlainData plain r.last) (u : String) (hu : KnownUnit u)
    (us : List String) :
    ∃ doc o0, save plain projF projS r.params (r.before ++ [r.last]) r.sym = .ok doc ∧ open' doc none u = .ok o0 ∧
      ∃ o, o = us.foldl (fun o v => (setUnit o v).1) o0 ∧ ∃ f s h a e c,
      o.freeEnergy = .ok f ∧ EnergyUnit (lastUnit u us) r.params.unitcell.st.elements.length r.last.free f ∧
      o.staticPotential = .ok s ∧ EnergyUnit (lastUnit u us) r.params.unitcell.st.elements.length r.last.static s ∧
      o.harmonicFreeEnergy = .ok h ∧ EnergyUnit (lastUnit u us) r.params.unitcell.st.elements.length r.last.harmonic h ∧
      o.anharmonicFreeEnergy = .ok a ∧ EnergyUnit (lastUnit u us) r.params.unitcell.st.elements.length r.last.anharmonic a ∧
      o.entropyValue = .ok e ∧ EntropyUnit (lastUnit u us) r.params.unitcell.st.elements.length r.last.entropy e ∧
      o.heatCapacity = .ok c ∧ EntropyUnit (lastUnit u us) r.params.unitcell.st.elements.length r.last.heat c ∧
      VolumeUnit (lastUnit u us) r.params.unitcell.st.elements.length r.params.unitcell.st.axis.det o.volumeValue ∧
      IsNum o.temperature r.last.temperature ∧ SameCrystal o.unitcell.st r.params.unitcell.st ∧ o.matrix = r.params.matrix ∧
      o.nUnitcells = r.params.matrix.det ∧ o.pot = .str r.params.pot ∧
      (∀ b, r.last.converge = some b → o.converge = .bool b) ∧ (∀ b, r.last.imaginary = some b → o.imaginary = .bool b) ∧
      (∀ q, r.last.delta = some q → plain q = true → o.delta = .num q) := by
  obtain ⟨ex, hex⟩ := super_ok hg.2.2.1
  obtain ⟨fac, hf⟩ := factors_unit hu r.params.unitcell.st.elements.length
  refine ⟨_, _, save_eq plain projF projS r hex, open_doc plain projF projS r ex hg.1 u fac hf, _, rfl, ?_⟩
  obtain ⟨h1, h2⟩ := units_history (openOf plain r u fac) u hf us
  have hpos : 0 < r.params.unitcell.st.elements.length := List.length_pos_iff.mpr hne
  generalize us.foldl (fun o v => (setUnit o v).1) (openOf plain r u fac) = o at h1 h2 ⊢
  have h2' : factors (lastUnit u us) r.params.unitcell.st.elements.length = .ok (o.unitEnergy, o.unitEntropy, o.unitVolume) := h2
  obtain ⟨p1, p2, p3, p4, p5, p6, p7⟩ := hp
  obtain ⟨a1, a2, a3, a4, a5, a6, a7, a8, a9, a10, a11, a12, a13, a14⟩ := h1
  dsimp only [openOf] at a1 a2 a3 a4 a5 a6 a7 a8 a9 a10 a11 a12 a13 a14
  rw [write_plain p1] at a2
  rw [write_plain p2] at a3
  rw [write_plain p3] at a4
  rw [write_plain p4] at a5
  rw [write_plain p5] at a6
  rw [write_plain p6] at a7
  rw [write_plain p7] at a8
  have k := fun x => energyIn_factors hpos h2' x
  refine ⟨r.last.free * o.unitEnergy, r.last.static * o.unitEnergy, r.last.harmonic * o.unitEnergy,
    r.last.anharmonic * o.unitEnergy, r.last.entropy * o.unitEntropy, r.last.heat * o.unitEntropy, ?_, (k _).1, ?_, (k _).1, ?_,
    (k _).1, ?_, (k _).1, ?_, (k _).2.1, ?_, (k _).2.1, ?_, a2, ?_, a13, ?_, a1, ?_, ?_, ?_⟩
  · rw [Restart.freeEnergy, a6]; rfl
  · rw [Restart.staticPotential, a3]; rfl
  · simp only [Restart.harmonicFreeEnergy, a4, orErr, bind, Except.bind, scaled]
  · simp only [Restart.anharmonicFreeEnergy, a5, orErr, bind, Except.bind, scaled]
  · rw [Restart.entropyValue, a7]; rfl
  · rw [Restart.heatCapacity, a8]; rfl
  · rw [Restart.volumeValue, a14]; exact (k _).2.2
  · rw [a12]; exact ⟨rfl, rfl, rfl, rfl, rfl, rfl⟩
  · rw [Restart.nUnitcells, a13]
  · intro b hb; rw [a10, hb]; rfl
  · intro b hb; rw [a11, hb]; rfl
  · intro q hq hpq; rw [a9, hq]; exact write_plain hpq

theorem force_table {plain : ℚ → Bool} {f : List (V3 ℚ)}
    (h : ∀ v ∈ f, plain v.x = true ∧ plain v.y = true ∧ plain v.z = true) : ForceTable (writeForces plain f) f := by
  refine ⟨_, rfl, ?_⟩
  induction f with
  | nil => exact .nil
  | cons v f ih =>
    obtain ⟨h1, h2, h3⟩ := h v List.mem_cons_self
    refine .cons ⟨_, _, _, rfl, write_plain h1, write_plain h2, write_plain h3⟩ (ih fun v hv => h v (List.mem_cons_of_mem _ hv))

theorem stress_table {plain : ℚ → Bool} {s : Fin 6 → ℚ} (h : ∀ i, plain (s i) = true) :
    StressTable (writeStress plain s) s := by
  have : writeStress plain s = writeForces plain [⟨s 0, s 3, s 5⟩, ⟨s 3, s 1, s 4⟩, ⟨s 5, s 4, s 2⟩] := rfl
  unfold StressTable
  rw [this]
  exact force_table (by simp [h])

/-- C87: the file also holds the energies in eV, the sum of average and static forces and stresses, the status and the free
energies of all iterations. -/
theorem C87_entries_partial (plain : ℚ → Bool) (hp : ∀ q, plain q = true) (projF : List (V3 ℚ) → List (V3 ℚ))
    (projS : M3 ℚ → M3 ℚ) (r : Run) (n : ℕ) (hg : GoodRun r n)
    (hl : r.last.averageForces.length = r.last.staticForces.length) :
    ∃ doc ev tf ts st logs fe e1 e2 e3 e4 dl, save plain projF projS r.params (r.before ++ [r.last]) r.sym = .ok doc ∧
      HasEntry doc "properties_eV" (.dict ev) ∧
      HasEntry ev "free_energy" (.num e1) ∧ e1 * eVinKJ = r.last.free ∧
      HasEntry ev "harmonic_free_energy" (.num e2) ∧ e2 * eVinKJ = r.last.harmonic ∧
      HasEntry ev "anharmonic_free_energy" (.num e3) ∧ e3 * eVinKJ = r.last.anharmonic ∧
      HasEntry ev "static_potential" (.num e4) ∧ e4 * eVinKJ = r.last.static ∧
      HasEntry doc "total_forces" tf ∧ (∃ f, ForceTable tf f ∧ f.length = r.last.averageForces.length ∧
        ∀ (i : ℕ) (a s : V3 ℚ), r.last.averageForces[i]? = some a → r.last.staticForces[i]? = some s →
          f[i]? = some ⟨a.x + s.x, a.y + s.y, a.z + s.z⟩) ∧
      HasEntry doc "total_stress_tensor" ts ∧ StressTable ts (fun i => r.last.averageStress i + r.last.staticStress i) ∧
      HasEntry doc "status" (.dict st) ∧ HasEntry st "delta_fc" dl ∧ (∀ q, r.last.delta = some q → dl = .num q) ∧
      (∀ b, r.last.converge = some b → HasEntry st "converge" (.bool b)) ∧
      (∀ b, r.last.imaginary = some b → HasEntry st "imaginary" (.bool b)) ∧
      HasEntry doc "logs" (.dict logs) ∧ HasEntry logs "free_energy" (.list fe) ∧
      fe = (r.before ++ [r.last]).map (fun d => .num d.free) := by
  obtain ⟨ex, hex⟩ := super_ok hg.2.2.1
  have hw : ∀ q, write plain q = .num q := fun q => write_plain (hp q)
  have d : ∀ x : ℚ, x / evToKJ * eVinKJ = x := by
    intro x
    rw [← ev_eq]
    exact div_mul_cancel₀ _ ev_ne
  refine ⟨docOf plain projF projS r ex, [("free_energy", write plain (r.last.free / evToKJ)),
      ("harmonic_free_energy", write plain (r.last.harmonic / evToKJ)),
      ("anharmonic_free_energy", write plain (r.last.anharmonic / evToKJ)),
      ("static_potential", write plain (r.last.static / evToKJ))],
    writeForces plain (addForces r.last.averageForces r.last.staticForces),
    writeStress plain (fun i => r.last.averageStress i + r.last.staticStress i),
    [("delta_fc", writeOpt (write plain) r.last.delta), ("converge", writeOpt .bool r.last.converge),
      ("imaginary", writeOpt .bool r.last.imaginary)],
    [("free_energy", .list ((r.before ++ [r.last]).map fun e => write plain e.free))],
    (r.before ++ [r.last]).map fun e => write plain e.free,
    r.last.free / evToKJ, r.last.harmonic / evToKJ, r.last.anharmonic / evToKJ, r.last.static / evToKJ,
    writeOpt (write plain) r.last.delta, save_eq plain projF projS r hex, ?_, ?_, d _, ?_, d _, ?_, d _, ?_, d _, ?_,
    ⟨_, force_table fun _ _ => ⟨hp _, hp _, hp _⟩, ?_, ?_⟩, ?_, stress_table fun _ => hp _,
    get_iff.mp (get_status plain projF projS r ex), ?_, ?_, ?_, ?_,
    get_iff.mp (get_logs plain projF projS r ex), ?_, ?_⟩
  · apply get_iff.mp; unfold docOf; cases r.sym <;> rfl
  · apply get_iff.mp; rw [← hw]; rfl
  · apply get_iff.mp; rw [← hw]; rfl
  · apply get_iff.mp; rw [← hw]; rfl
  · apply get_iff.mp; rw [← hw]; rfl
  · apply get_iff.mp; unfold docOf; cases r.sym <;> rfl
  · simp [addForces, hl]
  · intro i a s ha hs
    simp [addForces, List.getElem?_zipWith, ha, hs]
  · apply get_iff.mp; unfold docOf; cases r.sym <;> rfl
  · apply get_iff.mp; rfl
  · intro q hq; rw [hq]; exact hw q
  · intro b hb; apply get_iff.mp; rw [hb]; rfl
  · intro b hb; apply get_iff.mp; rw [hb]; rfl
  · apply get_iff.mp; rfl
  · apply List.map_congr_left; intro e _; exact hw _

/-- C87: if symmetrized properties are saved, the file holds the symmetrized average forces and stress, and the symmetrized
sums of average and static forces and stresses. -/
theorem C87_symmetrized_partial (plain : ℚ → Bool) (hp : ∀ q, plain q = true) (projF : List (V3 ℚ) → List (V3 ℚ))
    (projS : M3 ℚ → M3 ℚ) (r tot : Run) (n : ℕ) (hg : GoodRun r n) (hs : r.sym = true)
    (hl : r.last.averageForces.length = r.last.staticForces.length) (hn : tot.params.nUnitcells = r.params.nUnitcells)
    (hf : tot.last.averageForces.length = r.last.averageForces.length)
    (hf' : ∀ (i : ℕ) (a s : V3 ℚ), r.last.averageForces[i]? = some a → r.last.staticForces[i]? = some s →
      tot.last.averageForces[i]? = some ⟨a.x + s.x, a.y + s.y, a.z + s.z⟩)
    (ht : ∀ i, tot.last.averageStress i = r.last.averageStress i + r.last.staticStress i) :
    ∃ doc af as tf ts f s f' s', save plain projF projS r.params (r.before ++ [r.last]) r.sym = .ok doc ∧
      HasEntry doc "symmetrized_average_forces" af ∧ HasEntry doc "symmetrized_average_stress_tensor" as ∧
      HasEntry doc "symmetrized_total_forces" tf ∧ HasEntry doc "symmetrized_total_stress_tensor" ts ∧
      ForceTable af f ∧ StressTable as s ∧ SymOf projF projS r f s ∧
      ForceTable tf f' ∧ StressTable ts s' ∧ SymOf projF projS tot f' s' := by
  obtain ⟨ex, hex⟩ := super_ok hg.2.2.1
  have e1 : addForces r.last.averageForces r.last.staticForces = tot.last.averageForces := by
    apply List.ext_getElem?
    intro i
    by_cases hi : i < r.last.averageForces.length
    · have h1 : r.last.averageForces[i]? = some r.last.averageForces[i] := List.getElem?_eq_getElem hi
      have h2 : r.last.staticForces[i]? = some (r.last.staticForces[i]'(hl ▸ hi)) := List.getElem?_eq_getElem (hl ▸ hi)
      rw [hf' i _ _ h1 h2]
      simp [addForces, List.getElem?_zipWith, h1, h2]
    · have h1 : tot.last.averageForces[i]? = none := List.getElem?_eq_none (by omega)
      have h2 : r.last.averageForces[i]? = none := List.getElem?_eq_none (by omega)
      rw [h1]
      simp [addForces, List.getElem?_zipWith, h2]
  have e2 : (fun i => r.last.averageStress i + r.last.staticStress i) = tot.last.averageStress := funext fun i => (ht i).symm
  refine ⟨docOf plain projF projS r ex,
    writeForces plain (symmetrize projF projS r.params.nUnitcells r.last.averageForces r.last.averageStress).1,
    writeStress plain (symmetrize projF projS r.params.nUnitcells r.last.averageForces r.last.averageStress).2,
    writeForces plain (symmetrize projF projS tot.params.nUnitcells tot.last.averageForces tot.last.averageStress).1,
    writeStress plain (symmetrize projF projS tot.params.nUnitcells tot.last.averageForces tot.last.averageStress).2,
    _, _, _, _, save_eq plain projF projS r hex, ?_, ?_, ?_, ?_, force_table fun _ _ => ⟨hp _, hp _, hp _⟩,
    stress_table fun _ => hp _, sym_spec projF projS r hg.2.2.2.2, force_table fun _ _ => ⟨hp _, hp _, hp _⟩,
    stress_table fun _ => hp _, sym_spec projF projS tot (hn ▸ hg.2.2.2.2)⟩
  · apply get_iff.mp; unfold docOf; rw [hs]; rfl
  · apply get_iff.mp; unfold docOf; rw [hs]; rfl
  · apply get_iff.mp; rw [← e1, ← e2, hn]; unfold docOf; rw [hs]; rfl
  · apply get_iff.mp; rw [← e1, ← e2, hn]; unfold docOf; rw [hs]; rfl

/-- C87: the free energy that is not given is the sum of the harmonic and anharmonic ones. -/
theorem C87_free_energy (free harmonic anharmonic : Option ℚ) (x : ℚ) :
    postInit free harmonic anharmonic = some x ↔
      free = some x ∨ free = none ∧ ∃ h a, harmonic = some h ∧ anharmonic = some a ∧ x = h + a := by
  cases free <;> cases harmonic <;> cases anharmonic <;> simp [postInit, eq_comm]

/-! ## Findings -/

/-- Finding: a calculation whose convergence was never decided (for example one that was only preconditioned) is saved with
`None`, which is read as text, and counts as converged. -/
theorem C87_none_violation (plain : ℚ → Bool) (projF : List (V3 ℚ) → List (V3 ℚ)) (projS : M3 ℚ → M3 ℚ) (symmetrized : Bool)
    (r : Run) (n : ℕ) (hg : GoodRun r n)
    (hp : PlainArrays plain r.last.averageForces r.last.averageStress) (hs : ∀ f s, SymOf projF projS r f s → PlainArrays plain f s)
    (hc : r.last.converge = none) :
    ∃ doc x, save plain projF projS r.params (r.before ++ [r.last]) r.sym = .ok doc ∧
      parse symmetrized [(r.name, doc)] = .ok [x] := by
  obtain ⟨ex, hex⟩ := super_ok hg.2.2.1
  obtain ⟨x, hx, -⟩ := record_of plain projF projS symmetrized r n ex hex hg hp hs
  refine ⟨_, x, save_eq plain projF projS r hex, ?_⟩
  have hpf := parseFile_doc plain projF projS symmetrized r ex
  rw [hx, hc, if_neg (by simp)] at hpf
  simp only [parse, List.mapM_cons, List.mapM_nil, hpf, bind, Except.bind, pure, Except.pure, Except.map]
  rfl

/-- Finding: setting a unit that does not exist raises an exception, but `unit` is then this text, while the values are still
in the old unit. -/
theorem C87_unit_violation (r : Restart) (u : String) (h : ¬ KnownUnit u) :
    (setUnit r u).2 = .error .runtimeError ∧ (setUnit r u).1.unit = u ∧ (setUnit r u).1.freeEnergy = r.freeEnergy ∧
      (setUnit r u).1.volumeValue = r.volumeValue := by
  unfold setUnit
  rw [factors_no h]
  exact ⟨rfl, rfl, rfl, rfl⟩

/-- Finding: a free energy that is printed without a decimal point is saved, but reading it from the opened calculation
raises TypeError. -/
theorem C87_text_violation (plain : ℚ → Bool) (projF : List (V3 ℚ) → List (V3 ℚ)) (projS : M3 ℚ → M3 ℚ) (r : Run) (n : ℕ)
    (hg : GoodRun r n) (hp : plain r.last.free = false) (u : String) (hu : KnownUnit u) :
    ∃ doc o, save plain projF projS r.params (r.before ++ [r.last]) r.sym = .ok doc ∧ open' doc none u = .ok o ∧
      o.freeEnergy = .error .typeError := by
  obtain ⟨ex, hex⟩ := super_ok hg.2.2.1
  obtain ⟨fac, hf⟩ := factors_unit hu r.params.unitcell.st.elements.length
  refine ⟨_, _, save_eq plain projF projS r hex, open_doc plain projF projS r ex hg.1 u fac hf, ?_⟩
  simp [Restart.freeEnergy, openOf, write, hp, scaled]

/-- Finding: one component of a stress that is printed without a decimal point stops the reading of all files, if properties
of supercells are read. -/
theorem C87_stress_violation (plain : ℚ → Bool) (projF : List (V3 ℚ) → List (V3 ℚ)) (projS : M3 ℚ → M3 ℚ) (r : Run) (n : ℕ)
    (hg : GoodRun r n) (hp : plain (r.last.averageStress 0) = false) (hc : r.last.converge = some true)
    (rest : List (String × List (String × Yaml))) :
    ∃ doc, save plain projF projS r.params (r.before ++ [r.last]) r.sym = .ok doc ∧
      parse false ((r.name, doc) :: rest) = .error .typeError := by
  obtain ⟨hu, hsu, hm, hnu, hpos⟩ := hg
  obtain ⟨ex, hex⟩ := super_ok hm
  refine ⟨_, save_eq plain projF projS r hex, ?_⟩
  have hpf := parseFile_doc plain projF projS false r ex
  rw [hc, if_neg (by simp)] at hpf
  have hgp : getProperties r.name (docOf plain projF projS r ex) false = .error .typeError := by
    have hf : get [("free_energy", write plain r.last.free), ("harmonic_free_energy", write plain r.last.harmonic),
        ("anharmonic_free_energy", write plain r.last.anharmonic), ("static_potential", write plain r.last.static),
        ("entropy", write plain r.last.entropy), ("harmonic_heat_capacity", write plain r.last.heat)] "free_energy" =
        .ok (write plain r.last.free) := rfl
    obtain ⟨m, hm'⟩ := Option.ne_none_iff_exists'.mp hm
    obtain ⟨h3, -⟩ := load_saved_super plain r.params.supercell m _ "supercell" hsu ex hm' hex
      (get_iff.mp (get_supercell plain projF projS r ex))
    have h4 := super_get (plain := plain) hex hnu
    have ht : times33 n (tens plain r.last.averageStress) = .error .typeError := by
      simp [times33, times3, tens, write, hp, times, bind, Except.bind]
    unfold getProperties
    simp only [get_properties, bind, Except.bind, asDict, hf, asFloat_write, Bool.false_and, Bool.false_eq_true, if_false, h3,
      get_supercell, h4, asNat_num, get_forces, get_stress, writeForces, asList, rows_of, array33_write, ht]
  rw [hgp] at hpf
  simp only [parse, List.mapM_cons, hpf, bind, Except.bind, Except.map]

/-! ## Examples -/

/-- A calculation. -/
def exRun : Run :=
  { name := "300/sscha_results.yaml"
    params := ⟨"polymlp.yaml", exCell, exCell, ⟨⟨2, 0, 0⟩, ⟨0, 1, 0⟩, ⟨0, 0, 1⟩⟩, 2⟩
    before := []
    last := ⟨300, -700, -10, 2, -8, 30, 40, [⟨0, 0, 0⟩, ⟨0, 0, 0⟩], [⟨1, 0, 0⟩, ⟨-1, 0, 0⟩], fun _ => 0, fun i => i.val,
      some (1 / 100), some true, some false⟩
    sym := true }

example : GoodRun exRun 2 := by
  refine ⟨?_, ?_, by decide, rfl, by decide⟩ <;> · unfold ValidCell; decide

/-- The sums of `exRun`. -/
def exTotal : Run := { exRun with last := { exRun.last with
  averageForces := addForces exRun.last.averageForces exRun.last.staticForces
  averageStress := fun i => exRun.last.averageStress i + exRun.last.staticStress i } }

/-- The hypotheses of `C87_symmetrized_partial` are met. -/
example : exRun.sym = true ∧ exRun.last.averageForces.length = exRun.last.staticForces.length ∧
    exTotal.params.nUnitcells = exRun.params.nUnitcells ∧
    exTotal.last.averageForces.length = exRun.last.averageForces.length ∧
    (∀ (i : ℕ) (a s : V3 ℚ), exRun.last.averageForces[i]? = some a → exRun.last.staticForces[i]? = some s →
      exTotal.last.averageForces[i]? = some ⟨a.x + s.x, a.y + s.y, a.z + s.z⟩) ∧
    ∀ i, exTotal.last.averageStress i = exRun.last.averageStress i + exRun.last.staticStress i := by
  refine ⟨rfl, rfl, rfl, rfl, ?_, fun _ => rfl⟩
  intro i a s ha hs
  simp [exTotal, addForces, List.getElem?_zipWith, ha, hs]

example : PlainData (fun q => decide (q ≠ 1 / 100000)) exRun.last := by
  unfold PlainData
  decide +kernel

example : PlainArrays (fun q => decide (q ≠ 1 / 100000)) exRun.last.averageForces exRun.last.averageStress := by
  unfold PlainArrays
  decide +kernel

example : lastUnit "kJ/mol" ["eV/atom", "Ry", "eV/cell", "meV"] = "eV/cell" ∧ KnownUnit "eV/atom" ∧ ¬ KnownUnit "Ry" := by
  unfold lastUnit
  decide +kernel

example : EveryNth 2 [⟨1, 0, 0⟩, ⟨2, 0, 0⟩, ⟨3, 0, 0⟩] [⟨1, 0, 0⟩, ⟨3, 0, 0⟩] := by
  intro k
  match k with
  | 0 => rfl
  | 1 => rfl
  | k + 2 =>
    rw [List.getElem?_eq_none (by simp), List.getElem?_eq_none (by simp; omega)]

end Verif.SschaFiles
