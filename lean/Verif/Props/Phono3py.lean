import Verif.Spec.Phono3py
import Verif.Props.Construct
import Verif.Props.Phonopy
import Mathlib.Tactic.FieldSimp
import Mathlib.Tactic.Ring
import Mathlib.Tactic.LinearCombination
import Mathlib.Algebra.Order.Ring.Rat

/-!
# C113: data sets of displacements
-/

namespace Verif.Phono3py
open Verif.Spec Verif.Dataset Verif.StrUtils

variable {K : Type}

theorem inverse_ok [Field K] [DecidableEq K] {a : M3 K} (h : a.det ≠ 0) :
    ∃ ai, inverse a = .ok ai ∧ ∀ u, cartOf3 a (act ai u) = u := by
  unfold inverse
  rw [if_neg h]
  refine ⟨_, rfl, fun u => ?_⟩
  generalize hD : a.det = D at *
  unfold M3.det at hD
  unfold cartOf3 act
  cases u with
  | mk x y z =>
    simp only [V3.mk.injEq]
    refine ⟨?_, ?_, ?_⟩ <;> field_simp <;> rw [← hD] <;> ring

theorem cart_plus [CommRing K] (a : M3 K) (p q : V3 K) :
    cartOf3 a (plus p q) = ⟨(cartOf3 a p).x + (cartOf3 a q).x, (cartOf3 a p).y + (cartOf3 a q).y, (cartOf3 a p).z + (cartOf3 a q).z⟩ := by
  unfold cartOf3 plus
  simp only [V3.mk.injEq]
  refine ⟨?_, ?_, ?_⟩ <;> ring

/-- The structures of displacements. -/
theorem convert_aux [Field K] [DecidableEq K] (st : Structure K) (ai : M3 K) (hai : ∀ u, cartOf3 st.axis (act ai u) = u)
    (ss : List (DispSample K)) (n : ℕ) (hs : ∀ s ∈ ss, s.disp.length = st.positions.length) :
    ∃ cs : List (Calc K), ((ss.map (·.disp)).zipIdx n).mapM (displace ai st) = .ok (cs.map (·.st)) ∧
      List.Forall₂ (SampleCalc st.axis st.elements st.positions) ss cs ∧
      cs.map (·.energy) = ss.map (·.energy) ∧ cs.map (·.forces) = ss.map (·.force) ∧
      ∀ c ∈ cs, c.st.types = st.types ∧ c.st.nAtoms = st.nAtoms := by
  induction ss generalizing n with
  | nil => exact ⟨[], rfl, .nil, rfl, rfl, by simp⟩
  | cons s ss ih =>
    obtain ⟨cs, h1, h2, h3, h4, h5⟩ := ih (n + 1) fun x hx => hs x (by simp [hx])
    have hl := hs s (by simp)
    let c : Calc K := ⟨{ st with positions := List.zipWith (fun x u => plus x (act ai u)) st.positions s.disp, name := some ("disp-" ++ toString (n + 1)) }, s.energy, s.force, ⟨⟨0, 0, 0⟩, ⟨0, 0, 0⟩, ⟨0, 0, 0⟩⟩⟩
    refine ⟨c :: cs, ?_, .cons ⟨rfl, rfl, ?_, ?_, rfl, rfl, rfl⟩ h2, by simp [h3, c], by simp [h4, c], ?_⟩
    · simp only [List.map_cons, List.zipIdx_cons, List.mapM_cons, displace, hl, if_true, h1, bind, Except.bind, pure, Except.pure, c]
    · simp [c, hl]
    · intro j p p' u hp hp' hu
      simp only [c, List.getElem?_zipWith, hp, hu] at hp'
      simp only [Option.some.injEq] at hp'
      rw [← hp', cart_plus, hai]
    · intro x hx
      rcases List.mem_cons.1 hx with rfl | hx
      · exact ⟨rfl, rfl⟩
      · exact h5 x hx

theorem convert_ok [Field K] [DecidableEq K] (st : Structure K) (hd : st.axis.det ≠ 0) (ss : List (DispSample K))
    (hs : ∀ s ∈ ss, s.disp.length = st.positions.length) :
    ∃ cs : List (Calc K), convert (ss.map (·.disp)) st = .ok (cs.map (·.st)) ∧
      List.Forall₂ (SampleCalc st.axis st.elements st.positions) ss cs ∧
      cs.map (·.energy) = ss.map (·.energy) ∧ cs.map (·.forces) = ss.map (·.force) ∧
      ∀ c ∈ cs, c.st.types = st.types ∧ c.st.nAtoms = st.nAtoms := by
  obtain ⟨ai, h, hai⟩ := inverse_ok hd
  obtain ⟨cs, hc⟩ := convert_aux st ai hai ss 0 hs
  refine ⟨cs, ?_, hc.2⟩
  unfold convert
  rw [h]
  exact hc.1

/-- Missing stresses are zeros. -/
theorem missing_stresses [CommRing K] (sts : List (Structure K)) (es : List K) (fs : Option (List (List (V3 K))))
    (elems : List String) :
    setProperties sts es fs none elems =
      (setProperties sts es fs (some (es.map fun _ => ⟨⟨0, 0, 0⟩, ⟨0, 0, 0⟩, ⟨0, 0, 0⟩⟩)) elems).map
        (fun d => { d with existStress := false }) := by
  unfold setProperties
  by_cases hl : sts.length = es.length
  · simp only [Option.any_none, Option.any_some, List.length_map, ne_eq, hl, not_true_eq_false,
      decide_false, Bool.false_eq_true, if_false, bind, Except.bind, pure, Except.pure]
    split
    · rfl
    · generalize List.mapM (m := Except Err) _ _ = r
      cases r with
      | error x => rfl
      | ok ps =>
        simp only [checkErrors]
        split <;> rfl
  · simp [hl, bind, Except.bind, throw, throwThe, MonadExceptOf.throw, Except.map]

theorem forall₂_mem {α β : Type} {R : α → β → Prop} {l : List α} {m : List β} (h : List.Forall₂ R l m) :
    ∀ b ∈ m, ∃ a ∈ l, R a b := by
  induction h with
  | nil => simp
  | cons h _ ih =>
    intro b hb
    rcases List.mem_cons.1 hb with rfl | hb
    · exact ⟨_, by simp, h⟩
    · obtain ⟨a, ha, h⟩ := ih b hb
      exact ⟨a, by simp [ha], h⟩

theorem forall₂_trans {α β γ : Type} {R : α → β → Prop} {S : β → γ → Prop} {l : List α} {m : List β} {n : List γ}
    (h : List.Forall₂ R l m) (h' : List.Forall₂ S m n) : List.Forall₂ (fun a c => ∃ b, R a b ∧ S b c) l n := by
  induction h generalizing n with
  | nil => cases h'; exact .nil
  | cons h _ ih => cases h' with
    | cons h1 h2 => exact .cons ⟨_, h, h1⟩ (ih h2)

/-- The common part. -/
theorem built [Field K] [DecidableEq K] (st : Structure K) (hwf : st.WF) (hd : st.axis.det ≠ 0) (ss : List (DispSample K))
    (hs : ∀ s ∈ ss, s.disp.length = st.positions.length ∧ s.force.length = st.positions.length) (els : List String)
    (hn : els.Nodup) (he : ∀ e ∈ st.elements, e ∈ els) :
    ∃ sts d, convert (ss.map (·.disp)) st = .ok sts ∧
      setProperties sts (ss.map (·.energy)) (some (ss.map (·.force))) none els = .ok d ∧
      HasSamples st.axis st.elements st.positions els ss d := by
  obtain ⟨cs, h1, h2, h3, h4, h5⟩ := convert_ok st hd ss fun s h => (hs s h).1
  have hok : ∀ c ∈ cs, c.OK els := by
    intro c hc
    obtain ⟨s, hsm, g1, g2, g3, g4, g5, g6, g7⟩ := forall₂_mem h2 c hc
    obtain ⟨t1, t2⟩ := h5 c hc
    refine ⟨⟨?_, ?_, ?_⟩, ?_, ?_⟩
    · rw [g3, g2]; exact hwf.1
    · rw [g2, t1]; exact hwf.2.1
    · rw [g2, t2]; exact hwf.2.2
    · rw [g6, g3]; exact (hs s hsm).2
    · rw [g2]; exact he
  obtain ⟨d, rs, e, hr, hb, k1, k2, k3⟩ := C50_construct_aligned els hn cs hok
  have hst : cs.map (·.stress) = (ss.map (·.energy)).map (fun _ => (⟨⟨0, 0, 0⟩, ⟨0, 0, 0⟩, ⟨0, 0, 0⟩⟩ : M3 K)) := by
    rw [← h3, List.map_map]
    refine List.map_congr_left fun c hc => ?_
    obtain ⟨s, _, _, _, _, _, _, _, g7⟩ := forall₂_mem h2 c hc
    exact g7
  refine ⟨_, { d with existStress := false }, h1, ?_, rs, hr, forall₂_trans h2 hb, k1, k2, rfl⟩
  rw [missing_stresses, ← hst, ← h3, ← h4, e]
  rfl

theorem uncovered [CommRing K] (els : List String) (hn : els.Nodup) (c : Calc K) (cs : List (Calc K)) (hwf : c.st.WF)
    (he : ¬ ∀ e ∈ c.st.elements, e ∈ els) (d : DFT K) :
    setProperties ((c :: cs).map (·.st)) ((c :: cs).map (·.energy)) (some ((c :: cs).map (·.forces))) none els ≠ .ok d := by
  unfold setProperties
  simp [bind, Except.bind, AtomOrder.C16_permute_atoms_uncovered c.st els c.forces hwf hn he]

theorem det_columns [CommRing K] (c : M3 K) : (columnsOf c).det = c.det := by
  unfold columnsOf M3.det; ring

theorem file_structure [Field K] [DecidableEq K] (f : File K) (ss : List (DispSample K)) (h : FileHas f ss) :
    ∃ st, fromPhonopy f.supercell = .ok st ∧ st.WF ∧ st.positions = f.supercell.scaledPositions ∧
      st.elements = f.supercell.symbols ∧ st.axis = columnsOf f.supercell.cell ∧
      ∀ s ∈ ss, s.disp.length = st.positions.length ∧ s.force.length = st.positions.length := by
  obtain ⟨_, _, _, h4, h5⟩ := h
  obtain ⟨st, g, w, g1, g2, g3, _⟩ := C47_fields f.supercell h4.symm
  refine ⟨st, g, w.1, g1, g2, g3, fun s hs => ?_⟩
  rw [g1, ← h4]
  exact h5 s hs

/-- **C113** A file of phono3py gives the data set of its samples: every sample is the supercell with each atom moved by
its displacement, and keeps its energy, and the force of each atom when the atoms are grouped by elements. -/
theorem C113_parse [Field K] [DecidableEq K] (f : File K) (ss : List (DispSample K)) (h : FileHas f ss)
    (hd : f.supercell.cell.det ≠ 0) (els : List String) (hn : els.Nodup)
    (he : ∀ e, e ∈ els ↔ e ∈ f.supercell.symbols) :
    ∃ d, parse f (some els) false = .ok d ∧
      HasSamples (columnsOf f.supercell.cell) f.supercell.symbols f.supercell.scaledPositions els ss d := by
  obtain ⟨st, g, w, g1, g2, g3, g4⟩ := file_structure f ss h
  obtain ⟨h1, h2, h3, _⟩ := h
  obtain ⟨sts, d, k1, k2, k3⟩ := built st w (by rw [g3, det_columns]; exact hd) ss g4 els hn
    (by rw [g2]; exact fun e h => (he e).2 h)
  rw [g1, g2, g3] at k3
  refine ⟨d, ?_, k3⟩
  have hc : checkElements (some els) f.supercell.symbols = .ok els := by
    unfold checkElements
    simp only
    rw [if_pos fun e h => (he e).1 h]
  unfold parse properties
  simp only [h1, h2, h3, bind, Except.bind, g, k1, orErr, hc, k2]

/-- **C113** With at least one sample nothing else is read: the elements must be given and be exactly those of the file,
and the cell must have a volume. -/
theorem C113_refused [Field K] [DecidableEq K] (f : File K) (ss : List (DispSample K)) (h : FileHas f ss) (hss : ss ≠ [])
    (elements : Option (List String)) (hn : ∀ els, elements = some els → els.Nodup) (d : DFT K)
    (hp : parse f elements false = .ok d) :
    f.supercell.cell.det ≠ 0 ∧ ∃ els, elements = some els ∧ ∀ e, e ∈ els ↔ e ∈ f.supercell.symbols := by
  obtain ⟨st, g, w, g1, g2, g3, g4⟩ := file_structure f ss h
  obtain ⟨h1, h2, h3, _⟩ := h
  have hd : st.axis.det ≠ 0 := by
    intro h0
    unfold parse properties at hp
    simp [h1, h2, bind, Except.bind, g, convert, inverse, h0] at hp
  obtain ⟨cs, c1, c2, c3, c4, c5⟩ := convert_ok st hd ss fun s h => (g4 s h).1
  refine ⟨by rw [g3, det_columns] at hd; exact hd, ?_⟩
  cases elements with
  | none =>
    unfold parse properties at hp
    simp [h1, h2, h3, bind, Except.bind, g, c1, orErr, checkElements] at hp
  | some els =>
    have hc : ∀ e ∈ els, e ∈ f.supercell.symbols := by
      by_contra hc
      unfold parse properties at hp
      simp [h1, h2, h3, bind, Except.bind, g, c1, orErr, checkElements, hc] at hp
    refine ⟨els, rfl, fun e => ⟨hc e, ?_⟩⟩
    by_contra hx
    have hck : checkElements (some els) f.supercell.symbols = .ok els := by
      unfold checkElements
      simp only
      rw [if_pos hc]
    cases c2 with
    | nil => exact hss rfl
    | @cons s c ss' cs' hsc _ =>
      obtain ⟨d1, d2, d3, d4, d5, d6, d7⟩ := hsc
      obtain ⟨t1, t2⟩ := c5 c (by simp)
      refine uncovered els (hn els rfl) c cs' ⟨?_, ?_, ?_⟩ ?_ d ?_
      · rw [d3, d2]; exact w.1
      · rw [d2, t1]; exact w.2.1
      · rw [d2, t2]; exact w.2.2
      · rw [d2, g2]
        intro hall
        exact hx fun he => hall e he
      · unfold parse properties at hp
        simp only [h1, h2, h3, bind, Except.bind, g, c1, orErr, hck] at hp
        rw [c3, c4]
        exact hp

/-- **C113** A file without energies is refused. -/
theorem C113_energies [Field K] [DecidableEq K] (f : File K) (elements : Option (List String)) (usePhonon : Bool)
    (h : f.energies = none) (d : DFT K) : parse f elements usePhonon ≠ .ok d := by
  intro hp
  unfold parse at hp
  cases h1 : properties f usePhonon with
  | error e => simp [h1, bind, Except.bind] at hp
  | ok p =>
    have hen : p.2.2 = none := by
      unfold properties at h1
      split at h1
      · cases h1
      · cases h1; exact h
      · cases h1; exact h
      · cases h1
    cases h2 : fromPhonopy f.supercell with
    | error e => simp [h1, h2, bind, Except.bind] at hp
    | ok st =>
      cases h3 : convert p.1 st with
      | error e => simp [h1, h2, h3, bind, Except.bind] at hp
      | ok sts => simp [h1, h2, h3, hen, bind, Except.bind, orErr] at hp

/-- **C113** Displacements, forces and energies given as arrays become the data set of their samples. -/
theorem C113_displacements [Field K] [DecidableEq K] (st : Structure K) (hwf : st.WF) (hd : st.axis.det ≠ 0)
    (ss : List (DispSample K)) (hs : ∀ s ∈ ss, s.disp.length = st.positions.length ∧ s.force.length = st.positions.length)
    (els : List String) (hn : els.Nodup) (he : ∀ e ∈ st.elements, e ∈ els) :
    ∃ d, displacementSet (ss.map (·.disp)) (ss.map (·.force)) (ss.map (·.energy)) st els = .ok d ∧
      HasSamples st.axis st.elements st.positions els ss d := by
  obtain ⟨sts, d, k1, k2, k3⟩ := built st hwf hd ss hs els hn he
  refine ⟨d, ?_, k3⟩
  have hl : (ss.map (·.disp)).map List.length = (ss.map (·.force)).map List.length := by
    rw [List.map_map, List.map_map]
    exact List.map_congr_left fun s h => by simp [(hs s h).1, (hs s h).2]
  unfold displacementSet
  simp only [List.length_map, ne_eq, not_true_eq_false, hl, false_or, if_false, bind, Except.bind, pure, Except.pure, k1, k2]

/-- **C113** Arrays that do not belong together are refused. -/
theorem C113_shapes [Field K] [DecidableEq K] (disps forces : List (List (V3 K))) (energies : List K) (st : Structure K)
    (els : List String) (d : DFT K) (h : displacementSet disps forces energies st els = .ok d) :
    disps.length = energies.length ∧ disps.map List.length = forces.map List.length ∧
      ∀ u ∈ disps, u.length = st.positions.length := by
  unfold displacementSet at h
  by_cases hc : disps.length ≠ energies.length ∨ disps.map List.length ≠ forces.map List.length
  · simp [hc, bind, Except.bind, throw, throwThe, MonadExceptOf.throw] at h
  · simp only [hc, if_false, bind, Except.bind, pure, Except.pure] at h
    rw [not_or, not_not, not_not] at hc
    refine ⟨hc.1, hc.2, fun u hu => ?_⟩
    by_contra hne
    unfold convert at h
    cases hi : inverse st.axis with
    | error e => simp [hi, bind, Except.bind] at h
    | ok ai =>
      have : ∀ n, ∃ e, (disps.zipIdx n).mapM (displace ai st) = .error e := by
        intro n
        clear h hc
        induction disps generalizing n with
        | nil => simp at hu
        | cons a l ih =>
          rw [List.zipIdx_cons, List.mapM_cons]
          by_cases ha : a.length = st.positions.length
          · rcases List.mem_cons.1 hu with rfl | hu
            · exact absurd ha hne
            · obtain ⟨e, he⟩ := ih hu (n + 1)
              exact ⟨e, by simp [displace, ha, he, bind, Except.bind]⟩
          · exact ⟨.valueError, by simp [displace, ha, bind, Except.bind]⟩
      obtain ⟨e, he⟩ := this 0
      simp [hi, bind, Except.bind, he] at h

/-- A supercell of two atoms in an order other than that of the elements, and one sample. -/
def exampleFile : File ℚ where
  supercell := ⟨["O", "Mg"], ⟨⟨2, 0, 0⟩, ⟨0, 4, 0⟩, ⟨1, 0, 4⟩⟩, [⟨0, 0, 0⟩, ⟨1/2, 1/2, 1/2⟩], 32⟩
  displacements := some [[⟨1, 0, 0⟩, ⟨0, 0, 1⟩]]
  forces := some [[⟨-1, 0, 0⟩, ⟨0, 0, -1⟩]]
  energies := some [-7]
  phonon := some ([[⟨0, 0, 0⟩, ⟨0, 0, 0⟩]], [[⟨0, 0, 0⟩, ⟨0, 0, 0⟩]])

example : FileHas exampleFile [⟨[⟨1, 0, 0⟩, ⟨0, 0, 1⟩], [⟨-1, 0, 0⟩, ⟨0, 0, -1⟩], -7⟩] ∧ exampleFile.supercell.cell.det ≠ 0 :=
  ⟨⟨rfl, rfl, rfl, rfl, by simp [exampleFile]⟩, by decide +kernel⟩

example : (parse exampleFile (some ["Mg", "O"]) false).toOption.map (fun d => (d.structures.map (·.positions), d.energies, d.forces)) =
    some ([[⟨3/8, 1/2, 3/4⟩, ⟨1/2, 0, 0⟩]], [-7], [0, 0, -1, -1, 0, 0]) := by decide +kernel

/-- **C113** The data of phonons get the energies of the other data: without any displacement, the energy is that of
the displaced sample. -/
theorem C113_phonon_violation : ∃ (f : File ℚ) (u fr : List (List (V3 ℚ))) (d : DFT ℚ) (els : List String),
    f.phonon = some (u, fr) ∧ f.displacements ≠ some u ∧ parse f (some els) true = .ok d ∧ some d.energies = f.energies :=
  ⟨exampleFile, [[⟨0, 0, 0⟩, ⟨0, 0, 0⟩]], [[⟨0, 0, 0⟩, ⟨0, 0, 0⟩]],
    ⟨[⟨⟨⟨2, 0, 1⟩, ⟨0, 4, 0⟩, ⟨0, 0, 4⟩⟩, [⟨1/2, 1/2, 1/2⟩, ⟨0, 0, 0⟩], [1, 1], ["Mg", "O"], [0, 1], 32, none⟩], [-7], [0, 0, 0, 0, 0, 0], [0, 0, 0, 0, 0, 0], [32], [2], ["Mg", "O"], [none], true, false⟩,
    ["Mg", "O"], rfl, by decide +kernel, by
      have : (parse exampleFile (some ["Mg", "O"]) true).toOption = some ⟨[⟨⟨⟨2, 0, 1⟩, ⟨0, 4, 0⟩, ⟨0, 0, 4⟩⟩, [⟨1/2, 1/2, 1/2⟩, ⟨0, 0, 0⟩], [1, 1], ["Mg", "O"], [0, 1], 32, none⟩], [-7], [0, 0, 0, 0, 0, 0], [0, 0, 0, 0, 0, 0], [32], [2], ["Mg", "O"], [none], true, false⟩ := by decide +kernel
      cases h : parse exampleFile (some ["Mg", "O"]) true with
      | error e => rw [h] at this; cases this
      | ok d => rw [h] at this; cases this; rfl, rfl⟩

/-- **C113** In the input file, the flag for forces and the weight of a line are ignored for files of phono3py: the same
line declares other data than for other types. -/
theorem C113_flags_violation : ∃ strings : List Infile.PStr,
    (Infile.datasetOfStrings (α := ℚ) (fun _ => .ok (1/10)) strings).toOption.map (fun l => (l.includeForce, l.weight)) = some (false, 1/10) ∧
    (lineOf (K := ℚ) strings).toOption.map (fun l => (l.includeForce, l.weight)) = some (true, 1) :=
  ⟨["phono3py.yaml".toList, "False".toList, "0.1".toList], by decide +kernel, by decide +kernel⟩

end Verif.Phono3py
