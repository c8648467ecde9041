import Verif.Props.Dataset
import Verif.Spec.Construct
import Mathlib.Algebra.BigOperators.Ring.List

/-! # C50, C51: building a data set from calculations -/

namespace Verif.Dataset
open Spec
variable {K : Type}

private theorem ravelF_length (f : List (V3 K)) : (ravelF f).length = 3 * f.length := by
  unfold ravelF
  induction f with
  | nil => rfl
  | cons a l ih => rw [List.flatMap_cons, List.length_append, ih]; simp; omega

/-- What happens to one calculation. -/
private theorem permute_one [CommRing K] (elems : List String) (hn : elems.Nodup) (c : Calc K)
    (h : c.OK elems) :
    ∃ p : Structure K × List (V3 K), AtomOrder.permuteAtoms c.st elems c.forces = .ok p ∧
      BuiltFrom elems c ⟨p.1, c.energy, ravelF p.2, stress6 c.stress⟩ ∧
      (ravelF p.2).length = 3 * p.1.nAtoms.sum := by
  obtain ⟨h1, h2, h3⟩ := h
  obtain ⟨st', f', e, ha, hp, ht, hna, hax, hwf, hl⟩ :=
    AtomOrder.C16_permute_atoms c.st elems c.forces h1 h2 hn h3
  refine ⟨(st', f'), e, ⟨f', ha, hp, rfl, rfl, rfl, hax, ht, hna⟩, ?_⟩
  rw [ravelF_length, hl, hwf.1, hwf.2.2]

private theorem permute_all [CommRing K] (elems : List String) (hn : elems.Nodup) :
    ∀ (cs : List (Calc K)), (∀ c ∈ cs, c.OK elems) →
    ∃ ps : List (Structure K × List (V3 K)),
      ((cs.map (·.st)).zip (cs.map (·.forces))).mapM
        (fun p => AtomOrder.permuteAtoms p.1 elems p.2) = .ok ps ∧
      List.Forall₂ (BuiltFrom elems) cs (List.zipWith
        (fun (c : Calc K) p => (⟨p.1, c.energy, ravelF p.2, stress6 c.stress⟩ : Rec K)) cs ps) ∧
      cs.length = ps.length ∧ ∀ p ∈ ps, (ravelF p.2).length = 3 * p.1.nAtoms.sum
  | [], _ => ⟨[], rfl, by simp, rfl, by simp⟩
  | c :: cs, h => by
    obtain ⟨p, e, hb, hl⟩ := permute_one elems hn c (h c (by simp))
    obtain ⟨ps, es, hbs, hls, hss⟩ := permute_all elems hn cs (fun c hc => h c (by simp [hc]))
    refine ⟨p :: ps, ?_, ?_, by simp [hls], ?_⟩
    · simp only [List.map_cons, List.zip_cons_cons, List.mapM_cons, e, es, bind, Except.bind, pure,
        Except.pure]
    · simp only [List.zipWith_cons_cons, List.forall₂_cons]
      exact ⟨hb, hbs⟩
    · intro q hq
      rcases List.mem_cons.mp hq with rfl | hq
      · exact hl
      · exact hss q hq

/-- **C50.** Building a data set from any list of consistent calculations whose elements are all
known succeeds, and the flat arrays hold, calculation by calculation and in the given order, exactly
the given energy, the given forces (moved together with their atoms when atoms are grouped by
element) and the given stress components. -/
theorem C50_construct_aligned [CommRing K] (elems : List String) (hn : elems.Nodup)
    (cs : List (Calc K)) (h : ∀ c ∈ cs, c.OK elems) :
    ∃ d rs, setProperties (cs.map (·.st)) (cs.map (·.energy)) (some (cs.map (·.forces)))
        (some (cs.map (·.stress))) elems = .ok d ∧
      Represents d rs ∧ List.Forall₂ (BuiltFrom elems) cs rs ∧ d.elements = elems ∧
      d.existForce = true ∧ d.existStress = true := by
  obtain ⟨ps, e, hb, hl, hs⟩ := permute_all elems hn cs h
  set rs : List (Rec K) := List.zipWith
        (fun (c : Calc K) p => (⟨p.1, c.energy, ravelF p.2, stress6 c.stress⟩ : Rec K)) cs ps
    with hrs
  -- columns of the record list
  have col : ∀ {α : Type} (f : Rec K → α) (g : Calc K → Structure K × List (V3 K) → α),
      (∀ c p, f ⟨p.1, c.energy, ravelF p.2, stress6 c.stress⟩ = g c p) →
      rs.map f = List.zipWith g cs ps := by
    intro α f g hfg
    rw [hrs, List.map_zipWith]
    congr 1
    funext c p
    exact hfg c p
  have zl : ∀ {α : Type} (g : Structure K × List (V3 K) → α),
      List.zipWith (fun (_ : Calc K) p => g p) cs ps = ps.map g := by
    intro α g
    have : ∀ (cs : List (Calc K)) (ps : List (Structure K × List (V3 K))), cs.length = ps.length →
        List.zipWith (fun (_ : Calc K) p => g p) cs ps = ps.map g := by
      intro cs
      induction cs with
      | nil => intro ps hl; cases ps with
        | nil => rfl
        | cons _ _ => simp at hl
      | cons c cs ih => intro ps hl; cases ps with
        | nil => simp at hl
        | cons p ps => simp [ih ps (by simpa using hl)]
    exact this cs ps hl
  have zr : ∀ {α : Type} (g : Calc K → α),
      List.zipWith (fun c (_ : Structure K × List (V3 K)) => g c) cs ps = cs.map g := by
    intro α g
    have : ∀ (cs : List (Calc K)) (ps : List (Structure K × List (V3 K))), cs.length = ps.length →
        List.zipWith (fun c (_ : Structure K × List (V3 K)) => g c) cs ps = cs.map g := by
      intro cs
      induction cs with
      | nil => intro ps hl; rfl
      | cons c cs ih => intro ps hl; cases ps with
        | nil => simp at hl
        | cons p ps => simp [ih ps (by simpa using hl)]
    exact this cs ps hl
  have c1 : rs.map (·.st) = ps.map (·.1) := by rw [col _ (fun _ p => p.1) (fun _ _ => rfl), zl]
  have c2 : rs.map (·.energy) = cs.map (·.energy) := by
    rw [col _ (fun c _ => c.energy) (fun _ _ => rfl), zr]
  have c3 : rs.map (·.forces) = ps.map (fun p => ravelF p.2) := by
    rw [col _ (fun _ p => ravelF p.2) (fun _ _ => rfl), zl]
  have c4 : rs.map (·.stress) = cs.map (fun c => stress6 c.stress) := by
    rw [col _ (fun c _ => stress6 c.stress) (fun _ _ => rfl), zr]
  have c5 : rs.map (·.st.volume) = ps.map (·.1.volume) := by
    rw [col _ (fun _ p => p.1.volume) (fun _ _ => rfl), zl]
  have c6 : rs.map (·.natoms) = ps.map (·.1.nAtoms.sum) := by
    rw [col _ (fun _ p => p.1.nAtoms.sum) (fun _ _ => rfl), zl]
  have c7 : rs.map (·.st.name) = ps.map (·.1.name) := by
    rw [col _ (fun _ p => p.1.name) (fun _ _ => rfl), zl]
  have hlen : rs.length = cs.length := by rw [hrs, List.length_zipWith, ← hl, Nat.min_self]
  have hwf : ∀ r ∈ rs, r.WF := by
    intro r hr
    rw [hrs] at hr
    obtain ⟨i, hi, rfl⟩ := List.mem_iff_getElem.mp hr
    rw [List.getElem_zipWith]
    exact ⟨hs _ (List.getElem_mem _), rfl⟩
  let d : DFT K :=
    { structures := ps.map (·.1)
      energies := cs.map (·.energy)
      forces := ps.flatMap fun p => ravelF p.2
      stresses := ((cs.map (·.stress)).take ps.length).flatMap stress6
      volumes := ps.map (·.1.volume)
      totalNAtoms := ps.map (·.1.nAtoms.sum)
      elements := elems
      files := ps.map (·.1.name)
      existForce := true
      existStress := true }
  have hstr : ((cs.map (·.stress)).take ps.length).flatMap stress6 = rs.flatMap (·.stress) := by
    rw [List.take_of_length_le (by rw [List.length_map]; omega), List.flatMap_def, List.flatMap_def,
      c4, List.map_map]
    rfl
  have hfrc : (ps.flatMap fun p => ravelF p.2) = rs.flatMap (·.forces) := by
    rw [List.flatMap_def, List.flatMap_def, c3]
  have hrep : Represents d rs :=
    ⟨c1.symm, c2.symm, hfrc, hstr, c5.symm, c6.symm, c7.symm, hwf⟩
  refine ⟨d, rs, ?_, hrep, hb, rfl, rfl, rfl⟩
  have hchk : checkErrors d = .ok d := by
    unfold checkErrors
    rw [if_pos]
    have hsl : d.stresses.length = 6 * rs.length := by
      rw [hrep.2.2.2.1, List.length_flatMap]
      have : rs.map (fun r => r.stress.length) = rs.map (fun _ => 6) :=
        List.map_congr_left fun r hr => (hwf r hr).2
      rw [this]; simp [Nat.mul_comm]
    have hfl : d.forces.length = d.totalNAtoms.sum * 3 := by
      rw [hrep.2.2.1, hrep.2.2.2.2.2.1, List.length_flatMap]
      have : rs.map (fun r => r.forces.length) = rs.map (fun r => r.natoms * 3) :=
        List.map_congr_left fun r hr => by rw [(hwf r hr).1, Nat.mul_comm]
      rw [this, List.sum_map_mul_right]
    refine ⟨?_, ?_, ?_, ?_, hfl⟩
    · rw [hsl]; simp only [d, List.length_map]; omega
    · simp only [d, List.length_map]; omega
    · simp only [d, List.length_map]; omega
    · simp only [d, List.length_map]; omega
  unfold setProperties
  simp only [List.length_map, ne_eq, not_true_eq_false, if_false, Option.any_some, decide_false,
    Bool.false_eq_true, bind, Except.bind, pure, Except.pure]
  rw [e]
  exact hchk

/-- Missing forces or stresses are zeros of the right size, and nothing else changes. -/
theorem C50_missing_forces [CommRing K] (sts : List (Structure K)) (es : List K)
    (ss : Option (List (M3 K))) (elems : List String) :
    setProperties sts es none ss elems =
      (setProperties sts es (some (sts.map fun st => List.replicate st.elements.length ⟨0, 0, 0⟩))
        ss elems).map (fun d => { d with existForce := false }) := by
  unfold setProperties
  simp only [Option.any_none, Option.any_some, List.length_map, ne_eq, not_true_eq_false,
    decide_false, Bool.false_eq_true, if_false, bind, Except.bind, pure, Except.pure]
  split
  · rfl
  · split
    · rfl
    · generalize List.mapM (m := Except Err) _ _ = r
      cases r with
      | error x => rfl
      | ok ps =>
        simp only [checkErrors]
        split <;> split <;> rfl

/-- The three calculations of the running example. -/
def exCalcs : List (Calc ℚ) :=
  [⟨exA, -3, [⟨1, 2, 3⟩, ⟨4, 5, 6⟩, ⟨7, 8, 9⟩], ⟨⟨1, 4, 6⟩, ⟨4, 2, 5⟩, ⟨6, 5, 3⟩⟩⟩,
   ⟨exB, -1, [⟨10, 11, 12⟩], ⟨⟨7, 10, 12⟩, ⟨10, 8, 11⟩, ⟨12, 11, 9⟩⟩⟩]

example : ["Mg", "O"].Nodup ∧ ∀ c ∈ exCalcs, c.OK ["Mg", "O"] := by decide +kernel
example : (setProperties (exCalcs.map (·.st)) (exCalcs.map (·.energy))
    (some (exCalcs.map (·.forces))) (some (exCalcs.map (·.stress))) ["Mg", "O"]).toOption.map
      (fun d => (d.forces, d.stresses)) =
    some ([4, 5, 6, 1, 2, 3, 7, 8, 9, 10, 11, 12], [1, 2, 3, 4, 5, 6, 7, 8, 9, 10, 11, 12]) := by
  decide +kernel

private theorem checkErrors_ok {d d' : DFT K} (h : checkErrors d = .ok d') : d = d' := by
  unfold checkErrors at h
  split at h
  · exact Except.ok.inj h
  · cases h

/-- **C51 (violated).** Full statement: the name (file) of every structure survives loading, so that
prediction files can be related to input files.  In the code every name is lost as soon as an element
order is given: grouping atoms builds a new structure without a name. -/
theorem C51_names_lost [CommRing K] (sts : List (Structure K)) (es : List K)
    (fs : Option (List (List (V3 K)))) (ss : Option (List (M3 K))) (elems : List String) (d : DFT K)
    (h : setProperties sts es fs ss elems = .ok d) : ∀ f ∈ d.files, f = none := by
  have one : ∀ (st : Structure K) (f : List (V3 K)) p,
      AtomOrder.permuteAtoms st elems f = .ok p → p.1.name = none := by
    intro st f p hp
    unfold AtomOrder.permuteAtoms at hp
    simp only at hp
    split at hp
    · unfold Structure.mk' Structure.check at hp
      split at hp
      · simp only [bind, Except.bind, pure, Except.pure, Except.ok.injEq] at hp
        subst hp; rfl
      · cases hp
    · cases hp
  have all : ∀ (l : List (Structure K × List (V3 K))) ps,
      l.mapM (fun p => AtomOrder.permuteAtoms p.1 elems p.2) = .ok ps →
      ∀ p ∈ ps, p.1.name = none := by
    intro l
    induction l with
    | nil =>
      intro ps hps
      simp only [List.mapM_nil, pure, Except.pure, Except.ok.injEq] at hps
      subst hps; simp
    | cons a l ih =>
      intro ps hps
      simp only [List.mapM_cons, bind, Except.bind, pure, Except.pure] at hps
      cases h1 : AtomOrder.permuteAtoms a.1 elems a.2 with
      | error x => rw [h1] at hps; cases hps
      | ok p =>
        rw [h1] at hps
        simp only at hps
        cases h2 : l.mapM (fun p => AtomOrder.permuteAtoms p.1 elems p.2) with
        | error x => rw [h2] at hps; cases hps
        | ok qs =>
          rw [h2] at hps
          simp only [Except.ok.injEq] at hps
          subst hps
          intro q hq
          rcases List.mem_cons.mp hq with rfl | hq
          · exact one _ _ _ h1
          · exact ih qs h2 q hq
  unfold setProperties at h
  simp only [bind, Except.bind, pure, Except.pure, throw, throwThe, MonadExceptOf.throw] at h
  split at h
  · cases h
  · split at h
    · cases h
    · split at h
      · cases h
      · split at h
        · cases h
        · rename_i ps hps
          rw [← checkErrors_ok h]
          intro f hf
          obtain ⟨p, hp, rfl⟩ := List.mem_map.mp hf
          exact all _ _ hps p hp

/-- Concrete case: two named structures, no name afterwards. -/
theorem C51_witness :
    (setProperties [{ exA with name := some "vasprun-1.xml" }, { exB with name := some "vasprun-2.xml" }]
      [-3, -1] none none ["Mg", "O"]).toOption.map (·.files) = some [none, none] := by
  decide +kernel

end Verif.Dataset
