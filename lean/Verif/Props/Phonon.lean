import Verif.Spec.Phonon
import Verif.Props.Eos
import Verif.Props.Vasprun
import Verif.Props.ThermoEq

/-!
# Phonons and quasi-harmonic calculations (C108)
-/

namespace Verif.Phonon
open Verif.Spec

variable {St Cell Mat FC M P : Type}

theorem need_ok {α : Type} {e : Err} {o : Option α} {a : α} : need e o = .ok a ↔ o = some a := by
  cases o <;> simp [need]

/-- The force constants that are produced are those of the cell. -/
theorem produce_ok {eng : Engine St Cell Mat FC M P} {pot : Pot St} {o o' : Obj St Cell Mat FC M P} {d : ℝ}
    (h : produce eng pot o d = (o', .ok ())) :
    ∃ f, ForceConstants eng pot o.unit o.mat d f ∧ o' = { o with fc := some f } := by
  unfold produce at h
  cases hf : forcesOf eng pot o.unit o.mat d with
  | error e => rw [hf] at h; simp [Except.bind] at h
  | ok fs =>
    rw [hf] at h
    simp only [Except.bind] at h
    cases hc : eng.fc (eng.toCell o.unit) o.mat d fs with
    | error e => rw [hc] at h; simp at h
    | ok f =>
      rw [hc] at h
      simp only [Prod.mk.injEq, and_true] at h
      refine ⟨f, ⟨fs, ?_, hc⟩, h.symm⟩
      have := Verif.Vasprun.mapM_iff.1 hf
      refine this.imp ?_
      intro c g hg
      cases hp : pot (eng.toSt c) with
      | error e => rw [hp] at hg; simp [Except.map] at hg
      | ok v =>
        rw [hp] at hg
        simp only [Except.map, Except.ok.injEq] at hg
        exact ⟨v.1, v.2, rfl, fun a i => by rw [← hg]⟩

theorem produce_fields (eng : Engine St Cell Mat FC M P) (pot : Pot St) (o : Obj St Cell Mat FC M P) (d : ℝ) :
    ∃ f, (produce eng pot o d).1 = { o with fc := f } := by
  unfold produce
  cases (forcesOf eng pot o.unit o.mat d).bind (eng.fc (eng.toCell o.unit) o.mat d) with
  | error e => exact ⟨o.fc, rfl⟩
  | ok f => exact ⟨some f, rfl⟩

theorem computePdos_fields (eng : Engine St Cell Mat FC M P) (o : Obj St Cell Mat FC M P) (a : Args) :
    ∃ m p, (computePdos eng o a).1 = { o with withPdos := true, mesh := m, pdos := p } := by
  unfold computePdos
  simp only []
  cases runMesh eng { o with withPdos := true } a.mesh true false with
  | error e => exact ⟨o.mesh, o.pdos, rfl⟩
  | ok m =>
    simp only []
    cases eng.pdos m with
    | error e => exact ⟨some m, o.pdos, rfl⟩
    | ok p => exact ⟨some m, some p, rfl⟩

theorem compute_fields (eng : Engine St Cell Mat FC M P) (o : Obj St Cell Mat FC M P) (a : Args) :
    (compute eng o a).1.unit = o.unit ∧ (compute eng o a).1.mat = o.mat ∧ (compute eng o a).1.super = o.super ∧
      (a.pdos = false → (compute eng o a).1.withPdos = o.withPdos) := by
  unfold compute
  cases runMesh eng o a.mesh a.eig a.sym with
  | error e => exact ⟨rfl, rfl, rfl, fun _ => rfl⟩
  | ok m =>
    simp only []
    split
    · rename_i hp
      obtain ⟨m', p', he⟩ := computePdos_fields eng { o with
        mesh := some m, dos := some (eng.dos m), thermal := some (eng.thermal m a.temps), meshDict := some m } a
      rw [he]
      exact ⟨rfl, rfl, rfl, fun h => by simp [h] at hp⟩
    · exact ⟨rfl, rfl, rfl, fun _ => rfl⟩

theorem run_fields (eng : Engine St Cell Mat FC M P) (pot : Pot St) (o : Obj St Cell Mat FC M P) (d : ℝ) (a : Args) :
    (run eng pot o d a).1.unit = o.unit ∧ (run eng pot o d a).1.mat = o.mat ∧ (run eng pot o d a).1.super = o.super ∧
      (a.pdos = false → (run eng pot o d a).1.withPdos = o.withPdos) := by
  unfold run
  obtain ⟨f, hf⟩ := produce_fields eng pot o d
  generalize hq : produce eng pot o d = q at hf
  obtain ⟨o', r⟩ := q
  simp only at hf
  subst hf
  cases r with
  | error e => exact ⟨rfl, rfl, rfl, fun _ => rfl⟩
  | ok u => exact compute_fields eng _ a

theorem runs_fields (eng : Engine St Cell Mat FC M P) (pot : Pot St) (l : List (ℝ × Args)) :
    ∀ o : Obj St Cell Mat FC M P, (runs eng pot o l).unit = o.unit ∧ (runs eng pot o l).mat = o.mat ∧
      (runs eng pot o l).super = o.super ∧ ((∀ y ∈ l, y.2.pdos = false) → (runs eng pot o l).withPdos = o.withPdos) := by
  induction l with
  | nil => exact fun o => ⟨rfl, rfl, rfl, fun _ => rfl⟩
  | cons x l ih =>
    intro o
    obtain ⟨h1, h2, h3, h4⟩ := ih (run eng pot o x.1 x.2).1
    obtain ⟨g1, g2, g3, g4⟩ := run_fields eng pot o x.1 x.2
    refine ⟨h1.trans g1, h2.trans g2, h3.trans g3, fun h => ?_⟩
    exact (h4 fun y hy => h y (List.mem_cons_of_mem _ hy)).trans (g4 (h x List.mem_cons_self))

/-- C108 (files of phonons).  After any calls of `run_phonon`, failed or not, a successful call determines what is written:
the force constants are those that phonopy obtains from the forces of the potential on its displaced supercells for the
distance of this call, and mesh, density of states and thermal properties are those of these force constants, for the mesh
and temperatures of this call; the projected density of states, if asked for, is that of these force constants, with
eigenvectors and without symmetry.  The projected density of states is taken to be asked for now or never before. -/
theorem C108_run (eng : Engine St Cell Mat FC M P) (pot : Pot St) (unit : St) (mat : Mat)
    (o₀ o : Obj St Cell Mat FC M P) (h0 : init eng unit mat = .ok o₀) (l : List (ℝ × Args)) (d : ℝ) (a : Args)
    (hp : a.pdos = true ∨ ∀ y ∈ l, y.2.pdos = false)
    (h : run eng pot (runs eng pot o₀ l) d a = (o, .ok ())) :
    ∃ f x, ForceConstants eng pot unit mat d f ∧ write eng o true = .ok x ∧ FilesOf eng unit mat f a x ∧
      (a.pdos = false → x.pdos = none) := by
  unfold init at h0
  cases hs : eng.super (eng.toCell unit) mat with
  | error e => rw [hs] at h0; simp [Except.map] at h0
  | ok s =>
    rw [hs] at h0
    simp only [Except.map, Except.ok.injEq] at h0
    obtain ⟨k1, k2, k3, k4⟩ := runs_fields eng pot l o₀
    generalize hr : runs eng pot o₀ l = b at h k1 k2 k3 k4
    rw [← h0] at k1 k2 k3 k4
    simp only at k1 k2 k3 k4
    unfold run at h
    cases hq : produce eng pot b d with
    | mk o' r =>
      rw [hq] at h
      cases r with
      | error e => simp at h
      | ok u =>
        simp only [] at h
        obtain ⟨f, hf, rfl⟩ := produce_ok hq
        rw [k1, k2] at hf
        refine ⟨f, ?_⟩
        unfold compute at h
        cases hm : runMesh eng { b with fc := some f } a.mesh a.eig a.sym with
        | error e => rw [hm] at h; simp at h
        | ok m =>
          rw [hm] at h
          simp only [] at h
          have hm' : eng.mesh (eng.toCell unit) mat f a.mesh a.eig a.sym = .ok m := by
            rw [← k1, ← k2]; exact hm
          by_cases hpd : a.pdos = true
          · rw [if_pos hpd] at h
            unfold computePdos at h
            simp only [] at h
            split at h
            · simp at h
            · rename_i m2 hm2
              cases hpp : eng.pdos m2 with
              | error e => rw [hpp] at h; simp at h
              | ok p =>
                rw [hpp] at h
                simp only [Prod.mk.injEq, and_true] at h
                refine ⟨⟨m, eng.dos m, eng.thermal m a.temps, some p, (unit, eng.toSt s, mat), some f⟩, hf, ?_, ?_, ?_⟩
                · subst h
                  simp [write, need, pdosFile, bind, Except.bind, pure, Except.pure, k1, k2, k3]
                · refine ⟨rfl, ⟨s, hs, rfl⟩, hm', rfl, rfl, fun _ => ⟨m2, p, ?_, hpp, rfl⟩⟩
                  rw [← k1, ← k2]; exact hm2
                · intro hh; rw [hpd] at hh; exact absurd hh (by decide)
          · rw [if_neg hpd] at h
            simp only [Prod.mk.injEq, and_true] at h
            have hw : b.withPdos = false := k4 (hp.resolve_left hpd)
            refine ⟨⟨m, eng.dos m, eng.thermal m a.temps, none, (unit, eng.toSt s, mat), some f⟩, hf, ?_, ?_, ?_⟩
            · subst h
              simp [write, need, pdosFile, bind, Except.bind, pure, Except.pure, k1, k2, k3, hw]
            · exact ⟨rfl, ⟨s, hs, rfl⟩, hm', rfl, rfl, fun hh => absurd hh hpd⟩
            · intro _; rfl

/-- C108 (nothing to write).  Before the first run nothing can be written. -/
theorem C108_before (eng : Engine St Cell Mat FC M P) (unit : St) (mat : Mat) (o : Obj St Cell Mat FC M P)
    (h0 : init eng unit mat = .ok o) (b : Bool) : write eng o b = .error .attributeError := by
  unfold init at h0
  cases hs : eng.super (eng.toCell unit) mat with
  | error e => rw [hs] at h0; simp [Except.map] at h0
  | ok s =>
    rw [hs] at h0
    simp only [Except.map, Except.ok.injEq] at h0
    subst h0
    rfl

/-- An engine for examples: the force constants are the force on atom 0 along x. -/
def exEngine : Engine ℕ ℕ Unit ℝ (ℝ × Bool × Bool) (ℝ × Bool × Bool) where
  toCell := id
  toSt := id
  super := fun c _ => .ok (2 * c)
  displaced := fun c _ _ => [2 * c]
  fc := fun _ _ d fs => .ok (d * (fs.map fun g => g 0 0).sum)
  mesh := fun _ _ f ms e s => if ms.1 = 0 then .error .valueError else .ok (f, e, s)
  dos := fun m => [(m.1, 1)]
  thermal := fun m _ => ⟨[0], [m.1], [0], [0]⟩
  pdos := fun m => .ok m

/-- A potential for examples. -/
def exPot : Pot ℕ := fun n => .ok (n, fun i a => i.1 + a + n)

example : ∃ o₀ o, init exEngine 1 () = .ok o₀ ∧
    run exEngine exPot (runs exEngine exPot o₀ [(1, ⟨(1, 1, 1), (0, 0, 0), false, true, false⟩)]) 3
      ⟨(2, 2, 2), (0, 0, 0), false, true, true⟩ = (o, .ok ()) := by
  exact ⟨_, _, rfl, Prod.ext rfl rfl⟩

/-- C108 fails: a projected density of states that was asked for once is written by every later call, as it was then. -/
theorem C108_stale_violation :
    ∃ (o₀ : Obj ℕ ℕ Unit ℝ (ℝ × Bool × Bool) (ℝ × Bool × Bool)) (l : List (ℝ × Args)) (d : ℝ) (a : Args)
      (x : Files ℕ Unit ℝ (ℝ × Bool × Bool) (ℝ × Bool × Bool)) (p : ℝ × Bool × Bool),
      init exEngine 1 () = .ok o₀ ∧ (run exEngine exPot (runs exEngine exPot o₀ l) d a).2 = .ok () ∧ a.pdos = false ∧
      write exEngine (run exEngine exPot (runs exEngine exPot o₀ l) d a).1 true = .ok x ∧ x.pdos = some p ∧
      x.fc2 ≠ some p.1 := by
  refine ⟨_, [(1, ⟨(2, 2, 2), (0, 0, 0), false, true, true⟩)], 3, ⟨(2, 2, 2), (0, 0, 0), false, true, false⟩, _, _,
    rfl, rfl, rfl, rfl, rfl, ?_⟩
  simp [exEngine, exPot]
  change ¬ (3 * (2 * ((1 : ℕ) : ℝ)) = 2)
  norm_num

/-- C108 fails: after a run that failed for its mesh the written force constants are those of the failed run, the density of
states that of the run before. -/
theorem C108_failed_violation :
    ∃ (o₀ : Obj ℕ ℕ Unit ℝ (ℝ × Bool × Bool) (ℝ × Bool × Bool)) (l : List (ℝ × Args)) (d : ℝ) (a : Args)
      (x : Files ℕ Unit ℝ (ℝ × Bool × Bool) (ℝ × Bool × Bool)),
      init exEngine 1 () = .ok o₀ ∧ (run exEngine exPot (runs exEngine exPot o₀ l) d a).2 = .error .valueError ∧
      write exEngine (run exEngine exPot (runs exEngine exPot o₀ l) d a).1 true = .ok x ∧ x.fc2 ≠ some x.mesh.1 := by
  refine ⟨_, [(1, ⟨(2, 2, 2), (0, 0, 0), false, true, false⟩)], 3, ⟨(0, 0, 0), (0, 0, 0), false, true, false⟩, _,
    rfl, rfl, rfl, ?_⟩
  simp [exEngine, exPot]
  change ¬ (3 * (2 * ((1 : ℕ) : ℝ)) = 2)
  norm_num

/-- C108 (imaginary frequencies).  For a density of states without negative values: no frequency below -0.01 THz means no
imaginary modes, and a density above 10⁻⁶ at a frequency below -0.01 THz means imaginary modes. -/
theorem C108_imaginary (dos : List (ℝ × ℝ)) (hd : ∀ x ∈ dos, 0 ≤ x.2) :
    ((∀ x ∈ dos, -(1 / 100) ≤ x.1) → ¬ isImaginary dos) ∧
    ((∃ x ∈ dos, x.1 < -(1 / 100) ∧ x.2 > 1 / 10 ^ 6) → isImaginary dos) := by
  classical
  constructor
  · intro h
    have : dos.filter (fun x => decide (x.1 < -(1 / 100))) = [] := by
      rw [List.filter_eq_nil_iff]
      intro x hx
      have := h x hx
      simp only [decide_eq_true_eq, not_lt]
      exact this
    unfold isImaginary
    rw [show (dos.filter fun x => @decide (x.1 < -(1 / 100)) (Classical.propDecidable _)) = [] by
      convert this]
    norm_num
  · rintro ⟨x, hx, h1, h2⟩
    unfold isImaginary
    have hm : x.2 ∈ (dos.filter fun x => @decide (x.1 < -(1 / 100)) (Classical.propDecidable _)).map Prod.snd :=
      List.mem_map.2 ⟨x, List.mem_filter.2 ⟨hx, by simpa using h1⟩, rfl⟩
    refine lt_of_lt_of_le h2 ?_
    refine List.single_le_sum ?_ _ hm
    intro y hy
    obtain ⟨z, hz, rfl⟩ := List.mem_map.1 hy
    exact hd z (List.mem_filter.1 hz).1

example : ∃ dos : List (ℝ × ℝ), (∀ x ∈ dos, 0 ≤ x.2) ∧ isImaginary dos := by
  refine ⟨[(-1, 1), (2, 3)], by simp, ?_⟩
  exact (C108_imaginary _ (by simp)).2 ⟨(-1, 1), by simp, by norm_num, by norm_num⟩

/-- C108 fails: whether there are imaginary modes depends on the pitch at which the same density of states is sampled. -/
theorem C108_pitch_violation :
    ∃ g : ℝ → ℝ, ¬ isImaginary ([-1, 0].map fun t => (t, g t)) ∧ isImaginary ([-1, -(1 / 2), 0].map fun t => (t, g t)) := by
  classical
  refine ⟨fun _ => 8 / 10 ^ 7, ?_, ?_⟩
  · unfold isImaginary
    rw [List.map_cons, List.map_cons, List.map_nil, List.filter_cons_of_pos (by norm_num),
      List.filter_cons_of_neg (by norm_num)]
    norm_num
  · unfold isImaginary
    rw [List.map_cons, List.map_cons, List.map_cons, List.map_nil, List.filter_cons_of_pos (by norm_num),
      List.filter_cons_of_pos (by norm_num), List.filter_cons_of_neg (by norm_num)]
    norm_num

/-- The thermal properties of a cell. -/
theorem point_ok {eng : Engine Eos.Cell Cell Mat FC M P} {pot : Pot Eos.Cell} {mat : Mat} {a : QArgs} {c : Eos.Cell}
    {t : Tables} (h : point eng pot mat a c = .ok t) :
    ∃ f m, ForceConstants eng pot c mat a.distance f ∧
      eng.mesh (eng.toCell c) mat f a.mesh false true = .ok m ∧ t = eng.thermal m a.temps := by
  unfold point at h
  simp only [bind, Except.bind, pure, Except.pure] at h
  cases hi : init eng c mat with
  | error e => rw [hi] at h; simp at h
  | ok o =>
    rw [hi] at h
    simp only [] at h
    have ho : o.unit = c ∧ o.mat = mat := by
      unfold init at hi
      cases hs : eng.super (eng.toCell c) mat with
      | error e => rw [hs] at hi; simp [Except.map] at hi
      | ok s =>
        rw [hs] at hi
        simp only [Except.map, Except.ok.injEq] at hi
        subst hi
        exact ⟨rfl, rfl⟩
    cases hp : produce eng pot o a.distance with
    | mk o' r =>
      rw [hp] at h
      cases r with
      | error e => simp [Except.map] at h
      | ok u =>
        simp only [Except.map] at h
        obtain ⟨f, hf, rfl⟩ := produce_ok hp
        rw [ho.1, ho.2] at hf
        cases hm : runMesh eng { o with fc := some f } a.mesh false true with
        | error e => rw [hm] at h; simp at h
        | ok m =>
          rw [hm] at h
          simp only [Except.ok.injEq] at h
          refine ⟨f, m, hf, ?_, h.symm⟩
          rw [← hm, ← ho.1, ← ho.2]
          rfl

theorem rows_entry (n : ℕ) (cols : List (List ℝ)) (i k : ℕ) (col : List ℝ) (hk : cols[k]? = some col)
    (hn : col.length = n) (hi : i < n) : Entry (rows n cols) i k col[i]? := by
  unfold Entry rows
  rw [List.getElem?_map, List.getElem?_range hi]
  simp only [Option.map_some, Option.bind_some]
  rw [List.getElem?_map, hk, Option.map_some]
  rw [List.getD_eq_getElem?_getD, List.getElem?_eq_getElem (by omega)]
  rfl

theorem arange_ok {a b s : ℝ} (hs : 0 < s) : SschaApi.arange a b s = .ok (Eos.arange a b s) := by
  unfold SschaApi.arange Eos.arange
  rw [if_neg hs.ne', Int.ceil_toNat]

/-- C108 (quasi-harmonic data).  The volumes given to the quasi-harmonic approximation are the volume of the unit cell times
the ratios `lo`, `lo + step`, ... below `hi + 0.001`, in ascending order; for each of them the energy is that of the cell of
this volume, and the entry of each table at each temperature is that of the force constants of the same cell. -/
theorem C108_qha (eng : Engine Eos.Cell Cell Mat FC M P) (pot : Pot Eos.Cell) (unit : Eos.Cell) (mat : Mat) (a : QArgs)
    (q : QData) (temps : ℝ × ℝ × ℝ → List ℝ) (ht : SameTemps eng temps) (hs : 0 < a.step)
    (h : qha eng pot unit mat a = .ok q) :
    ∃ eps : List ℝ, eps.Pairwise (· < ·) ∧ (∀ x, x ∈ eps ↔ ∃ k : ℕ, x = a.lo + k * a.step ∧ x < a.hi + 1 / 1000) ∧
      q.volumes = eps.map (fun x => unit.st.volume * x) ∧ q.energies.length = eps.length ∧ q.temps = temps a.temps ∧
      q.free.length = q.temps.length ∧ q.entropy.length = q.temps.length ∧ q.cv.length = q.temps.length ∧
      ∀ (k : ℕ) x, eps[k]? = some x →
        (∃ e g, pot (Eos.volumeChange unit x) = .ok (e, g) ∧ q.energies[k]? = some e) ∧
        ∃ f m, ForceConstants eng pot (Eos.volumeChange unit x) mat a.distance f ∧
          eng.mesh (eng.toCell (Eos.volumeChange unit x)) mat f a.mesh false true = .ok m ∧
          ∀ i < q.temps.length, Entry q.free i k (eng.thermal m a.temps).free[i]? ∧
            Entry q.entropy i k (eng.thermal m a.temps).entropy[i]? ∧ Entry q.cv i k (eng.thermal m a.temps).cv[i]? := by
  unfold qha at h
  simp only [bind, Except.bind, pure, Except.pure] at h
  rw [arange_ok hs] at h
  simp only [] at h
  generalize hx : Eos.arange a.lo (a.hi + 1 / 1000) a.step = eps at h
  cases he : (eps.map (Eos.volumeChange unit)).mapM pot with
  | error e => rw [he] at h; simp at h
  | ok es =>
    rw [he] at h
    simp only [] at h
    cases hp : (eps.map (Eos.volumeChange unit)).mapM (point eng pot mat a) with
    | error e => rw [hp] at h; simp at h
    | ok ts =>
      rw [hp] at h
      simp only [] at h
      obtain ⟨el, eg⟩ := Verif.Thermo.mapM_ok _ _ _ he
      obtain ⟨tl, tg⟩ := Verif.Thermo.mapM_ok _ _ _ hp
      cases hl : ts.getLast? with
      | none => simp [lastTemps, hl] at h
      | some t =>
        simp only [lastTemps, hl, Except.ok.injEq] at h
        have htt : t.temps = temps a.temps := by
          have hmem : t ∈ ts := List.mem_of_getLast? hl
          obtain ⟨j, hj⟩ := List.mem_iff_getElem?.1 hmem
          have hlt : j < (eps.map (Eos.volumeChange unit)).length := by
            rw [← tl]; exact (List.getElem?_eq_some_iff.1 hj).1
          obtain ⟨b, hb, hb'⟩ := tg j _ (List.getElem?_eq_getElem hlt)
          rw [hj] at hb'
          obtain ⟨f, m, -, -, hm⟩ := point_ok hb
          have : b = t := (Option.some.inj hb').symm
          rw [← this, hm]
          exact (ht m a.temps).1
        subst h
        refine ⟨eps, ?_, ?_, ?_, ?_, htt, ?_, ?_, ?_, ?_⟩
        · rw [← hx]; exact Eos.sorted_arange hs
        · intro x; rw [← hx]; exact Eos.mem_arange hs
        · rw [List.map_map]; rfl
        · simpa using el
        · simp [rows]
        · simp [rows]
        · simp [rows]
        · intro k x hk
          have hk' : (eps.map (Eos.volumeChange unit))[k]? = some (Eos.volumeChange unit x) := by
            rw [List.getElem?_map, hk]; rfl
          obtain ⟨b, hb, hb'⟩ := eg k _ hk'
          obtain ⟨c, hc, hc'⟩ := tg k _ hk'
          refine ⟨⟨b.1, b.2, hb, by simp [hb']⟩, ?_⟩
          obtain ⟨f, m, hf, hm, rfl⟩ := point_ok hc
          obtain ⟨-, l1, l2, l3⟩ := ht m a.temps
          refine ⟨f, m, hf, hm, fun i hi => ?_⟩
          simp only [] at hi ⊢
          rw [htt] at hi ⊢
          exact ⟨rows_entry _ _ i k _ (by rw [List.getElem?_map, hc']; rfl) l1 hi,
            rows_entry _ _ i k _ (by rw [List.getElem?_map, hc']; rfl) l2 hi,
            rows_entry _ _ i k _ (by rw [List.getElem?_map, hc']; rfl) l3 hi⟩

/-- C108 fails: with a step below 0.001 there are volume ratios above the largest one asked for. -/
theorem C108_range_violation :
    ∃ a : QArgs, 0 < a.step ∧ ∃ eps, SschaApi.arange a.lo (a.hi + 1 / 1000) a.step = .ok eps ∧ ∃ x ∈ eps, a.hi < x := by
  refine ⟨⟨1, (1, 1, 1), (0, 0, 0), 1, 1, 1 / 2000⟩, by norm_num, _, arange_ok (by norm_num), 1 + 1 / 2000, ?_, by norm_num⟩
  exact (Eos.mem_arange (by norm_num)).2 ⟨1, by norm_num, by norm_num⟩

/-- C108 (force constants from a file).  If a file and an array of force constants are given, those of the file are used;
without both there is an error. -/
theorem C108_fc2 (eng : Engine St Cell Mat FC M P) (read : List Char → Except Err FC) (unit : St) (mat : Mat)
    (path : Option (List Char)) (fc2 : Option FC) (ms : ℕ × ℕ × ℕ) (ts : ℝ × ℝ × ℝ) (t : Tables)
    (h : harmonicFromFc2 eng read unit mat path fc2 ms ts = .ok t) :
    ∃ f m, ((∃ p, path = some p ∧ read p = .ok f) ∨ (path = none ∧ fc2 = some f)) ∧
      eng.mesh (eng.toCell unit) mat f ms false true = .ok m ∧ t = eng.thermal m ts := by
  unfold harmonicFromFc2 at h
  simp only [bind, Except.bind, pure, Except.pure] at h
  cases hf : fc2Of read path fc2 with
  | error e => rw [hf] at h; simp at h
  | ok f =>
    rw [hf] at h
    simp only [] at h
    cases hi : eng.super (eng.toCell unit) mat with
    | error e => simp [init, hi, Except.map] at h
    | ok s =>
      simp only [init, hi, Except.map, runMesh] at h
      cases hm : eng.mesh (eng.toCell unit) mat f ms false true with
      | error e => rw [hm] at h; simp at h
      | ok m =>
        rw [hm] at h
        simp only [Except.ok.injEq] at h
        refine ⟨f, m, ?_, hm, h.symm⟩
        unfold fc2Of at hf
        cases path with
        | some p => exact Or.inl ⟨p, rfl, hf⟩
        | none =>
          cases fc2 with
          | none => simp at hf
          | some g => exact Or.inr ⟨rfl, by simpa using hf⟩

example : harmonicFromFc2 exEngine (fun _ => .ok 5) 1 () (some []) (some 7) (2, 2, 2) (0, 0, 0) =
    .ok ⟨[0], [5], [0], [0]⟩ := rfl

/-- An engine on cells for examples. -/
def exEngine' : Engine Eos.Cell Eos.Cell Unit ℝ ℝ ℝ where
  toCell := id
  toSt := id
  super := fun c _ => .ok c
  displaced := fun c _ _ => [c]
  fc := fun _ _ d fs => .ok (d * (fs.map fun g => g 0 0).sum)
  mesh := fun _ _ f _ _ _ => .ok f
  dos := fun m => [(m, 1)]
  thermal := fun m _ => ⟨[0, 1], [m, m + 1], [0, 1], [2, 3]⟩
  pdos := fun m => .ok m

example : SameTemps exEngine' (fun _ => [0, 1]) ∧ ∃ q, qha exEngine' (fun c => .ok (c.st.volume, fun _ _ => c.st.volume))
    ⟨⟨⟨⟨1, 0, 0⟩, ⟨0, 1, 0⟩, ⟨0, 0, 1⟩⟩, [], [], [], [], 8, none⟩, none⟩ () ⟨1, (1, 1, 1), (0, 0, 0), 1, 2, 1⟩ = .ok q := by
  refine ⟨fun m t => ⟨rfl, rfl, rfl, rfl⟩, ?_⟩
  have : Eos.arange 1 (2 + 1 / 1000) 1 = [1 + ((0 : ℕ) : ℝ) * 1, 1 + ((1 : ℕ) : ℝ) * 1] := by
    unfold Eos.arange
    rw [show ⌈((2 : ℝ) + 1 / 1000 - 1) / 1⌉₊ = 2 by
      rw [Nat.ceil_eq_iff (by norm_num)]; norm_num]
    rfl
  unfold qha
  rw [arange_ok (by norm_num), this]
  exact ⟨_, rfl⟩

end Verif.Phonon
