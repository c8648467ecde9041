import Verif.Props.DisorderRun
import Mathlib.Tactic.NormNum

/-! # Sessions of disordered models (C92) -/

namespace Verif.Disorder
open Verif.Spec Verif.Spec.GridSearch Verif.StrUtils Verif.GridSearch Verif.Vasprun

variable {K : Type}

theorem evalAll_spec (eval : Structure K → Except Err Values) (he : ForceEach eval) (r : Rand) (hr : FairRand r)
    (occ : List (List (String × ℕ × ℚ))) (n maxIter : ℕ) (hn : 0 < n) (etol : ℝ) :
    ∀ (l : List (Structure K)) (calls : ℕ) (done : List Values),
      (∀ lat ∈ l, Suitable lat occ ∧ ∀ x ∈ lat.nAtoms.zip occ, Fills x.1 x.2) →
      ∃ vs, (evalAll eval r occ n maxIter etol l calls done).2.2 = done ++ vs ∧ vs.length ≤ l.length ∧
        List.Forall₂ (Averaged eval occ n maxIter etol) (l.take vs.length) vs ∧
        ((evalAll eval r occ n maxIter etol l calls done).1 = .ok () ↔ vs.length = l.length)
  | [], calls, done, _ => ⟨[], by simp [evalAll], by simp, by simp, by simp [evalAll]⟩
  | lat :: l, calls, done, h => by
    unfold evalAll
    cases hv : evalSingle eval r lat occ n maxIter etol calls with
    | error e => exact ⟨[], by simp, by simp, by simp, by simp⟩
    | ok v =>
      obtain ⟨c, v⟩ := v
      obtain ⟨vs, h1, h2, h3, h4⟩ := evalAll_spec eval he r hr occ n maxIter hn etol l c (done ++ [v])
        (fun lat hl => h lat (List.mem_cons_of_mem _ hl))
      have ha := h lat List.mem_cons_self
      refine ⟨v :: vs, by simpa using h1, by simpa using h2, ?_, ?_⟩
      · rw [List.length_cons, List.take_succ_cons]
        exact .cons (C92_average eval he r hr lat occ ha.1 ha.2 n maxIter hn etol calls c v hv) h3
      · rw [List.length_cons, List.length_cons]
        simp only
        rw [h4]
        omega

/-- **C92.** A session starts with the occupancy in terms of types and a lattice that has a sublattice for each of its entries. -/
theorem C92_create (ext : Ext K) (p : Pars) (occ : List (List (Key × ℚ))) (file : String) (st : Option (Structure K))
    (size : Option (List ℕ)) (s : Session K) (h : create ext p occ file st size = .ok s) :
    setFullOccupancy p occ = .ok s.occupancy ∧ (st = none → ext.poscar file = .ok s.lattice) ∧
      (∀ x, st = some x → s.lattice = x) ∧ s.lattice.nAtoms.length = occ.length ∧
      (size = none → s.cell = s.lattice) ∧ (∀ x, size = some x → ext.supercell s.lattice x = .ok s.cell) ∧
      s.displaced = none ∧ s.values = none := by
  unfold create at h
  simp only [bind, Except.bind, pure, Except.pure] at h
  cases h1 : setFullOccupancy p occ with
  | error e => simp [h1] at h
  | ok full =>
    simp only [h1] at h
    cases h2 : latticeOf ext file st with
    | error e => simp [h2] at h
    | ok lat =>
      simp only [h2] at h
      split at h
      · simp at h
      · rename_i hlen
        cases h3 : cellOf ext lat size with
        | error e => simp [h3] at h
        | ok cell =>
          simp only [h3, Except.ok.injEq] at h
          subst h
          have hfl : full.length = occ.length := by
            unfold setFullOccupancy at h1
            simp only [bind, Except.bind] at h1
            split at h1
            · simp at h1
            · split at h1
              · exact (mapM_iff.1 h1).length_eq.symm
              · simp at h1
          refine ⟨rfl, ?_, ?_, ?_, ?_, ?_, rfl, rfl⟩
          · rintro rfl
            exact h2
          · rintro x rfl
            exact (Except.ok.inj h2).symm
          · simp only [ne_eq, not_not] at hlen
            rw [hlen, hfl]
          · rintro rfl
            exact (Except.ok.inj h3).symm
          · rintro x rfl
            exact h3

theorem step_kept (ext : Ext K) (s : Session K) (o : Op) : (step ext s o).2.occupancy = s.occupancy ∧
    (step ext s o).2.lattice = s.lattice ∧ (step ext s o).2.cell = s.cell := by
  cases o with
  | displace n d base =>
    cases h : ext.displaced s.gens s.cell n d <;> simp [step, h]
  | evaluate n m etol =>
    cases h : s.displaced <;> simp [step, h]

/-- **C92.** Nothing changes the occupancy and the lattice of a session. -/
theorem C92_kept (ext : Ext K) (s : Session K) (ops : List Op) : (history ext s ops).occupancy = s.occupancy ∧
    (history ext s ops).lattice = s.lattice ∧ (history ext s ops).cell = s.cell := by
  induction ops generalizing s with
  | nil => exact ⟨rfl, rfl, rfl⟩
  | cons o ops ih =>
    have h1 := ih (step ext s o).2
    have h2 := step_kept ext s o
    exact ⟨h1.1.trans h2.1, h1.2.1.trans h2.2.1, h1.2.2.trans h2.2.2⟩

/-- **C92.** After any history, the lattices of a displacement are the cell itself, if it is asked for, and then the new displaced
copies of it, as many as asked for; lattices of earlier displacements are gone. -/
theorem C92_displaced (ext : Ext K) (s0 : Session K) (ops : List Op) (n : ℕ) (d : ℝ) (base : Bool) (P : Structure K → Prop)
    (hP : ∀ g l, ext.displaced g s0.cell n d = .ok l → l.length = n ∧ ∀ x ∈ l, P x)
    (hok : (step ext (history ext s0 ops) (.displace n d base)).1 = .ok ()) :
    ∃ l, (history ext s0 (ops ++ [.displace n d base])).displaced = some ((if base then [s0.cell] else []) ++ l) ∧
      l.length = n ∧ ∀ x ∈ l, P x := by
  have hstep : history ext s0 (ops ++ [.displace n d base]) = (step ext (history ext s0 ops) (.displace n d base)).2 := by
    unfold history
    rw [List.foldl_append]
    rfl
  rw [hstep]
  have hcell := (C92_kept ext s0 ops).2.2
  generalize history ext s0 ops = s at hok hcell
  cases h : ext.displaced s.gens s.cell n d with
  | error e => simp [step, h] at hok
  | ok l =>
    refine ⟨l, ?_, hP s.gens l (by rw [← hcell]; exact h)⟩
    rw [← hcell]
    simp only [step, h]
    cases base <;> rfl

theorem C92_not_displaced (ext : Ext K) (s : Session K) (ops : List Op) (hs : s.displaced = none)
    (hops : ∀ n d b, Op.displace n d b ∉ ops) (n m : ℕ) (etol : ℝ) :
    (step ext (history ext s ops) (.evaluate n m etol)).1 = .error .runtimeError ∧ history ext s ops = s := by
  have h : history ext s ops = s := by
    induction ops with
    | nil => rfl
    | cons o ops ih =>
      cases o with
      | displace n d b => exact absurd List.mem_cons_self (hops n d b)
      | evaluate n m etol =>
        have : (step ext s (.evaluate n m etol)).2 = s := by simp [step, hs]
        unfold history at ih ⊢
        rw [List.foldl_cons, this]
        exact ih fun n d b hm => hops n d b (List.mem_cons_of_mem _ hm)
  rw [h]
  exact ⟨by simp [step, hs], rfl⟩

/-- **C92.** After any history, an evaluation gives for each displaced lattice the averages over its random structures, in order;
after an exception, those of the lattices before.  What is then saved are the lattices with their averages, each in a file of its
own. -/
theorem C92_session (ext : Ext K) (he : ForceEach ext.eval) (hr : FairRand ext.rand) (s0 : Session K) (ops : List Op)
    (l : List (Structure K)) (hd : (history ext s0 ops).displaced = some l)
    (hl : ∀ lat ∈ l, Suitable lat s0.occupancy ∧ ∀ x ∈ lat.nAtoms.zip s0.occupancy, Fills x.1 x.2)
    (n maxIter : ℕ) (hn : 0 < n) (etol : ℝ) (path : Infile.PStr) :
    ∃ vs files, (history ext s0 (ops ++ [.evaluate n maxIter etol])).values = some vs ∧
      (history ext s0 (ops ++ [.evaluate n maxIter etol])).displaced = some l ∧
      ((step ext (history ext s0 ops) (.evaluate n maxIter etol)).1 = .ok () ↔ vs.length = l.length) ∧
      List.Forall₂ (Averaged ext.eval s0.occupancy n maxIter etol) (l.take vs.length) vs ∧
      saveProperties (history ext s0 (ops ++ [.evaluate n maxIter etol])) path = .ok files ∧
      files.map (·.2) = (l.take vs.length).zip vs ∧ (files.map (·.1)).Nodup := by
  have hstep : history ext s0 (ops ++ [.evaluate n maxIter etol]) =
      (step ext (history ext s0 ops) (.evaluate n maxIter etol)).2 := by
    unfold history
    rw [List.foldl_append]
    rfl
  rw [hstep]
  have hocc := (C92_kept ext s0 ops).1
  generalize history ext s0 ops = s at hd hocc
  obtain ⟨vs, h1, h2, h3, h4⟩ := evalAll_spec ext.eval he ext.rand hr s0.occupancy n maxIter hn etol l s.calls [] hl
  rw [List.nil_append] at h1
  have hval : (step ext s (.evaluate n maxIter etol)).2.values = some vs := by
    unfold step
    simp only [hd, hocc, h1]
  have hdis : (step ext s (.evaluate n maxIter etol)).2.displaced = some l := by
    unfold step
    simp only [hd]
  have hzip : l.zip vs = (l.take vs.length).zip vs := by
    rw [List.zip_eq_zip_take_min, Nat.min_eq_right h2, List.take_length]
  refine ⟨vs, (l.zip vs).zipIdx.map fun p =>
      (if 1 < vs.length then path ++ "/polymlp_disorder_".toList ++ zfill 5 (p.2 + 1) ++ ".yaml".toList
        else path ++ "/polymlp_disorder.yaml".toList, p.1), hval, hdis, ?_, h3, ?_, ?_, ?_⟩
  · rw [← h4]
    unfold step
    simp only [hd, hocc]
  · unfold saveProperties
    rw [hval, hdis]
  · rw [List.map_map, ← hzip]
    exact List.zipIdx_map_fst 0 _
  · rw [List.map_map]
    generalize "/polymlp_disorder_".toList = a1
    generalize ".yaml".toList = a2
    generalize "/polymlp_disorder.yaml".toList = a3
    by_cases hlen : 1 < vs.length
    · have : ((fun x : Infile.PStr × Structure K × Values => x.1) ∘ fun p : (Structure K × Values) × ℕ =>
          (if 1 < vs.length then path ++ a1 ++ zfill 5 (p.2 + 1) ++ a2 else path ++ a3, p.1)) =
          (fun i : ℕ => path ++ a1 ++ zfill 5 (i + 1) ++ a2) ∘ (fun p => p.2) := by
        funext p
        simp only [Function.comp_apply, if_pos hlen]
      rw [this, ← List.map_map, List.zipIdx_map_snd]
      refine List.Nodup.map ?_ List.nodup_range'
      intro i j hij
      have := zfill_inj (List.append_cancel_left (List.append_cancel_right hij))
      omega
    · have hl1 : ((l.zip vs).zipIdx).length ≤ 1 := by
        rw [List.length_zipIdx, List.length_zip]
        omega
      generalize (l.zip vs).zipIdx = z at hl1
      rcases z with _ | ⟨a, _ | ⟨b, z⟩⟩
      · simp
      · simp
      · simp at hl1

/-! ## What does not hold -/

/-- Samples from the front. -/
def front : Rand := ⟨fun _ l k => l.take k, id⟩

theorem front_fair : FairRand front :=
  ⟨fun _ l _ hk => ⟨(List.take_sublist _ l).subperm, List.length_take_of_le hk⟩, fun l => List.Perm.refl l⟩

/-- One site. -/
def site (x : ℕ) (e : String) : Structure ℕ :=
  ⟨⟨⟨1, 0, 0⟩, ⟨0, 1, 0⟩, ⟨0, 0, 1⟩⟩, [⟨x, 0, 0⟩], [1], [e], [0], 1, none⟩

/-- Probabilities that add up to one do not make all sites be occupied: of a sublattice with a single site shared by two elements
neither gets the site, which keeps the element of the lattice. -/
theorem C92_left_over_violation (r : Rand) (hr : FairRand r) :
    setFullOccupancy ⟨["Ag", "Au"], none⟩ [[(.element "Ag", 1 / 2), (.element "Au", 1 / 2)]] =
      .ok [[("Ag", 0, 1 / 2), ("Au", 1, 1 / 2)]] ∧
    ∃ c, randomStructure r (site 0 "Xx") [[("Ag", 0, 1 / 2), ("Au", 1, 1 / 2)]] 0 = .ok (c, site 0 "Xx", [0]) := by
  constructor
  · decide +kernel
  · have hp : ∀ c l, r.pick c l 0 = [] := fun c l => List.length_eq_zero_iff.1 (hr.pick c l 0 (Nat.zero_le _)).2
    have ho : ∀ l : List ℕ, l = [0] → r.order l = [0] := by
      rintro l rfl
      exact List.perm_singleton.1 (hr.order [0])
    have hfill : fill r [[("Ag", 0, 1 / 2), ("Au", 1, 1 / 2)]] [1] 0 (0, []) = .ok (2, [(("Ag", 0), []), (("Au", 1), [])]) := by
      have hr1 : rint (((1 : ℕ) : ℚ) * (1 / 2)) = 0 := by decide +kernel
      simp only [fill, fillSub, samples, hr1, bind, Except.bind]
      have hlen : ∀ l : List ℕ, l = [0] → ¬((l.length : ℤ) = 0) := by
        rintro l rfl
        decide
      rw [if_neg (hlen _ (by decide)), if_neg (by simp)]
      simp only [Int.toNat_zero, hp, extend]
      rw [ho _ (by decide)]
      simp only [List.length_singleton, Nat.cast_one, one_ne_zero, if_false]
      rw [if_neg (by decide)]
      simp [hp, extend]
    refine ⟨2, ?_⟩
    have hn : (site 0 "Xx").nAtoms = [1] := rfl
    unfold randomStructure
    rw [hn, hfill]
    simp only [bind, Except.bind]
    decide +kernel

/-- Names of elements are cut to the longest name in the lattice: on a lattice of `X`, silver is `A`. -/
theorem C92_name_violation (r : Rand) : ∃ c st ids, randomStructure r (site 0 "X") [[("Ag", 0, 1)]] 0 = .ok (c, st, ids) ∧
    st.elements = ["A"] := by
  have hfill : fill r [[("Ag", 0, 1)]] [1] 0 (0, []) = .ok (0, [(("Ag", 0), [0])]) := by
    have hr1 : rint 1 = 1 := by decide +kernel
    simp [fill, fillSub, samples, hr1, bind, Except.bind, extend]
  have hst : (sortWrtTypes (place [(("Ag", 0), [0])] (site 0 "X"))).map (fun x => x.1.elements) = .ok ["A"] := by decide +kernel
  have hn : (site 0 "X").nAtoms = [1] := rfl
  unfold randomStructure
  rw [hn, hfill]
  simp only [bind, Except.bind]
  cases h : sortWrtTypes (place [(("Ag", 0), [0])] (site 0 "X")) with
  | error e =>
    rw [h] at hst
    simp [Except.map] at hst
  | ok x =>
    rw [h] at hst
    exact ⟨0, x.1, x.2, rfl, by simpa [Except.map] using hst⟩

/-- An energy that tells sites apart. -/
noncomputable def tell (st : Structure ℕ) : Except Err Values :=
  .ok ⟨(st.positions.map fun p => (p.x : ℝ)).sum, st.positions.map fun _ => ⟨0, 0, 0⟩, fun _ => 0⟩

/-- Displaced lattices that differ from call to call. -/
noncomputable def moving : Ext ℕ :=
  ⟨front, tell, fun _ => .error .valueError, fun _ _ => .error .valueError, fun g _ _ _ => .ok [site g "Ag"]⟩

theorem site_suitable (x : ℕ) : Suitable (site x "Ag") [[("Ag", 0, 1)]] ∧
    ∀ y ∈ (site x "Ag").nAtoms.zip [[("Ag", 0, (1 : ℚ))]], Fills y.1 y.2 := by
  refine ⟨⟨by refine ⟨rfl, rfl, rfl⟩, by simp, rfl, by simp, ?_⟩, ?_⟩
  · intro o ho
    refine ⟨"Ag", by simp [site], ?_⟩
    simp at ho
    subst ho
    exact Nat.le_refl _
  · intro y hy
    have : y = (1, [("Ag", 0, (1 : ℚ))]) := by simpa [site] using hy
    subst this
    exact ⟨[1], .cons ⟨by norm_num, by norm_num⟩ .nil, by simp⟩

theorem site_energy {n m : ℕ} {etol : ℝ} {x : ℕ} {v : Values}
    (h : Averaged tell [[("Ag", 0, 1)]] n m etol (site x "Ag") v) : v.energy = x := by
  obtain ⟨B, h1, h2⟩ := h
  have hall : ∀ y ∈ B.flatten.map (·.energy), y = (x : ℝ) := by
    intro y hy
    obtain ⟨w, hw, rfl⟩ := List.mem_map.1 hy
    obtain ⟨b, hb, hwb⟩ := List.mem_flatten.1 hw
    obtain ⟨st, ids, w', ⟨g1, -, -, -, g2, -⟩, g3, g4, -⟩ := (h1 b hb).2 w hwb
    have hids : ids = [0] := List.perm_singleton.1 g1
    rw [hids] at g2
    have hpos : st.positions = [⟨x, 0, 0⟩] := g2
    have hw' := Except.ok.inj g3
    rw [g4, ← hw', hpos]
    simp
  obtain ⟨e1, e2⟩ := h2.energy
  generalize B.flatten.map (·.energy) = L at hall e1 e2
  have hL : L = List.replicate L.length (x : ℝ) := List.eq_replicate_of_mem hall
  have hne : (L.length : ℝ) ≠ 0 := by
    rw [Nat.cast_ne_zero]
    exact fun e => e1 (List.length_eq_zero_iff.1 e)
  have hsum : L.sum = L.length * (x : ℝ) := by
    conv_lhs => rw [hL]
    rw [List.sum_replicate, nsmul_eq_mul]
  rw [hsum, mul_comm] at e2
  exact mul_left_cancel₀ hne e2

/-- Averages outlive the lattices they are of: after new displaced lattices are set, the old averages are saved with them. -/
theorem C92_stale_violation : ∃ (ext : Ext ℕ) (s0 : Session ℕ) (ops : List Op) (name : Infile.PStr) (st : Structure ℕ) (v : Values),
    FairRand ext.rand ∧ ForceEach ext.eval ∧ s0.displaced = none ∧ s0.values = none ∧
    saveProperties (history ext s0 ops) [] = .ok [(name, st, v)] ∧
    ∀ n m etol, ¬Averaged ext.eval s0.occupancy n m etol st v := by
  let s0 : Session ℕ := { occupancy := [[("Ag", 0, 1)]], lattice := site 0 "Ag", cell := site 0 "Ag" }
  let pre : List Op := [.displace 1 1 false]
  obtain ⟨vs, files, h1, h2, h3, h4, -⟩ := C92_session moving
    (by intro st w hw; rw [← Except.ok.inj hw]; simp) front_fair s0 pre [site 0 "Ag"] rfl
    (by intro lat hlat; rw [List.mem_singleton.1 hlat]; exact site_suitable 0) 1 1 Nat.one_pos 1 []
  have hok : (step moving (history moving s0 pre) (.evaluate 1 1 1)).1 = .ok () := by
    obtain ⟨c, v, hv⟩ := C92_average_total tell (fun st => ⟨_, rfl⟩) front front_fair (site 0 "Ag") [[("Ag", 0, 1)]]
      (site_suitable 0).1 (site_suitable 0).2 1 1 Nat.one_pos 1 0
    have hs : (history moving s0 pre).displaced = some [site 0 "Ag"] := rfl
    have hc : (history moving s0 pre).calls = 0 := rfl
    have ho : (history moving s0 pre).occupancy = [[("Ag", 0, 1)]] := rfl
    have he1 : moving.eval = tell := rfl
    have he2 : moving.rand = front := rfl
    unfold step
    simp only [hs, hc, ho, he1, he2, evalAll, hv]
  have hlen := h3.1 hok
  obtain ⟨v, rfl⟩ : ∃ v, vs = [v] := List.length_eq_one_iff.1 hlen
  have hv : v.energy = ((0 : ℕ) : ℝ) := by
    cases h4 with
    | cons h _ => exact site_energy h
  refine ⟨moving, s0, pre ++ [.evaluate 1 1 1] ++ [.displace 1 1 false], "/polymlp_disorder.yaml".toList, site 1 "Ag", v,
    front_fair, (by intro st w hw; rw [← Except.ok.inj hw]; simp), rfl, rfl, ?_, ?_⟩
  · have hgen : (history moving s0 (pre ++ [.evaluate 1 1 1])).gens = 1 := rfl
    have : history moving s0 (pre ++ [.evaluate 1 1 1] ++ [.displace 1 1 false]) =
        (step moving (history moving s0 (pre ++ [.evaluate 1 1 1])) (.displace 1 1 false)).2 := by
      unfold history
      rw [List.foldl_append]
      rfl
    rw [this]
    generalize history moving s0 (pre ++ [.evaluate 1 1 1]) = s at h1 hgen
    have hm : ∀ g c n d, moving.displaced g c n d = .ok [site g "Ag"] := fun _ _ _ _ => rfl
    simp only [step, hm, hgen, saveProperties, h1]
    rfl
  · intro n m etol h
    have := site_energy h
    rw [hv] at this
    norm_num at this

/-! ## Examples -/

/-- Three sites, two of them shared by silver and gold. -/
def shared : Structure ℕ :=
  ⟨⟨⟨1, 0, 0⟩, ⟨0, 1, 0⟩, ⟨0, 0, 1⟩⟩, [⟨0, 0, 0⟩, ⟨1, 0, 0⟩, ⟨2, 0, 0⟩], [2, 1], ["Na", "Na", "Cl"], [0, 0, 1], 1, none⟩

/-- The occupancy of `shared`. -/
def sharedOcc : List (List (String × ℕ × ℚ)) := [[("Ag", 0, 1 / 2), ("Au", 1, 1 / 2)], [("Cu", 2, 1)]]

example : Suitable shared sharedOcc ∧ ∀ x ∈ shared.nAtoms.zip sharedOcc, Fills x.1 x.2 := by
  refine ⟨⟨⟨rfl, rfl, rfl⟩, by decide +kernel, rfl, by decide +kernel, by decide +kernel⟩, ?_⟩
  intro x hx
  have : x = (2, [("Ag", 0, 1 / 2), ("Au", 1, 1 / 2)]) ∨ x = (1, [("Cu", 2, 1)]) := by
    simpa [shared, sharedOcc] using hx
  rcases this with rfl | rfl
  · exact ⟨[1, 1], .cons ⟨by norm_num, by norm_num⟩ (.cons ⟨by norm_num, by norm_num⟩ .nil), by norm_num⟩
  · exact ⟨[1], .cons ⟨by norm_num, by norm_num⟩ .nil, by norm_num⟩

example : (randomStructure front shared sharedOcc 0).map (fun x => (x.2.1.elements, x.2.2)) = .ok (["Ag", "Au", "Cu"], [0, 1, 2]) := by
  decide +kernel

-- two elements on three sites in equal parts: two atoms of each
example : Overfull 3 [("Ag", 0, 1 / 2), ("Au", 1, 1 / 2)] :=
  ⟨[2, 2], .cons ⟨by norm_num [abs_le], fun _ => by decide⟩ (.cons ⟨by norm_num [abs_le], fun _ => by decide⟩ .nil), by norm_num⟩

example : TypesFor [("Fe", true), ("Al", false)] ⟨["Fe", "Fe", "Al"], some [true, true, false]⟩ :=
  ⟨by decide, rfl, Or.inr rfl⟩

example : setFullOccupancy ⟨["Fe", "Fe", "Al"], some [true, true, false]⟩
    [[(.spin "Fe" 0, 1 / 2), (.spin "Fe" 1, 1 / 2)], [(.element "Al", 1)]] =
    .ok [[("Fe", 0, 1 / 2), ("Fe", 1, 1 / 2)], [("Al", 2, 1)]] := by decide +kernel

example : setFullOccupancy ⟨["Fe", "Fe", "Al"], some [true, true, false]⟩
    [[(.spin "Fe" 0, 1 / 2), (.spin "Fe" 1, 1 / 2)], [(.spin "Al" 0, 1)]] = .error .runtimeError := by decide +kernel

end Verif.Disorder
