import Verif.Spec.LammpsEval
import Verif.Props.Rotation
import Verif.Props.Vasprun

/-!
# C111: evaluation of a structure with LAMMPS
-/

namespace Verif.LammpsEval
open Verif.Spec Verif.Rotation

theorem create_fold (types : List ℕ) (m : Machine) :
    (types.map (fun t => Command.createAtom (t + 1))).foldl Machine.apply m =
      { m with atoms := m.atoms ++ types.map fun t => (t + 1, 0) } := by
  induction types generalizing m with
  | nil => simp
  | cons t ts ih =>
    rw [List.map_cons, List.foldl_cons, ih]
    simp [Machine.apply]

theorem modify_place {α : Type} (f : α → α) (pre : List α) (a : α) (rest : List α) (k : ℕ) (hk : pre.length = k) :
    (pre ++ a :: rest).modify k f = pre ++ f a :: rest := by
  induction pre generalizing k with
  | nil => simp at hk; subst hk; simp
  | cons x pre ih =>
    cases k with
    | zero => simp at hk
    | succ k => simp [ih k (by simpa using hk)]

theorem set_fold (l : List Vec) (k : ℕ) (box : Tri) (pre rest : List (ℕ × Vec)) (hk : pre.length = k)
    (hl : rest.length = l.length) :
    ((l.zipIdx k).map fun p => Command.setAtom (p.2 + 1) p.1).foldl Machine.apply ⟨box, pre ++ rest⟩ =
      ⟨box, pre ++ List.zipWith (fun a x => (a.1, x)) rest l⟩ := by
  induction l generalizing k pre rest with
  | nil =>
    cases rest with
    | nil => simp
    | cons _ _ => simp at hl
  | cons x l ih =>
    cases rest with
    | nil => simp at hl
    | cons a rest =>
      rw [List.zipIdx_cons, List.map_cons, List.foldl_cons]
      have h1 : Machine.apply ⟨box, pre ++ a :: rest⟩ (Command.setAtom (k + 1) x) =
          ⟨box, (pre ++ [(a.1, x)]) ++ rest⟩ := by
        simp only [Machine.apply, Nat.add_sub_cancel]
        rw [modify_place _ pre a rest k hk]
        simp
      dsimp only
      rw [h1, ih (k + 1) (pre ++ [(a.1, x)]) rest (by simp [hk]) (by simpa using hl)]
      simp

/-- The state after the commands does not depend on the state before. -/
theorem commands_fold (types : List ℕ) (tri : Tri) (cart : List Vec) (m : Machine) (hl : types.length = cart.length) :
    (commands types tri cart).foldl Machine.apply m =
      ⟨tri, List.zipWith (fun t x => (t + 1, x)) types cart⟩ := by
  unfold commands
  rw [List.foldl_append, List.foldl_append, List.foldl_append, create_fold]
  simp only [List.foldl_cons, List.foldl_nil, Machine.apply, List.nil_append]
  have := set_fold cart 0 tri [] (types.map fun t => (t + 1, (0 : Vec))) rfl (by simpa using hl)
  simp only [List.nil_append] at this
  rw [this]
  congr 1
  rw [List.zipWith_map_left]

theorem find_nodup (uniq : List String) (hn : uniq.Nodup) (e : String) (k : ℕ) (hk : uniq[k]? = some e) :
    (uniq.zipIdx.reverse.find? fun p => p.1 == e) = some (e, k) := by
  cases h : uniq.zipIdx.reverse.find? fun p => p.1 == e with
  | none =>
    rw [List.find?_eq_none] at h
    have hm : (e, k) ∈ uniq.zipIdx := by rw [List.mem_zipIdx_iff_getElem?]; exact hk
    have := h (e, k) (by simpa using hm)
    simp at this
  | some p =>
    have h1 := List.find?_some h
    have h2 := List.mem_of_find?_eq_some h
    rw [List.mem_reverse, List.mem_zipIdx_iff_getElem?] at h2
    have h3 : p.1 = e := by simpa using h1
    rw [h3] at h2
    obtain ⟨hk', e1⟩ := List.getElem?_eq_some_iff.1 hk
    obtain ⟨hp', e2⟩ := List.getElem?_eq_some_iff.1 h2
    have : p.2 = k := (List.Nodup.getElem_inj_iff hn).1 (e2.trans e1.symm)
    rw [← h3, ← this]

theorem recast_ok (uniq : List String) (hn : uniq.Nodup) (l : List String) (types : List ℕ)
    (h : List.Forall₂ (fun e (t : ℕ) => uniq[t]? = some e) l types) : recast uniq l = .ok types := by
  unfold recast
  rw [Vasprun.mapM_iff]
  refine h.imp ?_
  intro e t ht
  rw [find_nodup uniq hn e t ht]

theorem recast_error (uniq l : List String) (h : ∃ e ∈ l, e ∉ uniq) : recast uniq l = .error .keyError := by
  have none_of : ∀ e, e ∉ uniq → (uniq.zipIdx.reverse.find? fun p => p.1 == e) = none := by
    intro e he
    rw [List.find?_eq_none]
    intro p hp
    rw [List.mem_reverse, List.mem_zipIdx_iff_getElem?] at hp
    intro h
    have : p.1 = e := by simpa using h
    exact he (this ▸ List.mem_of_getElem? hp)
  unfold recast
  induction l with
  | nil => simp at h
  | cons x l ih =>
    rw [List.mapM_cons]
    cases hx : (uniq.zipIdx.reverse.find? fun p => p.1 == x) with
    | none => rfl
    | some p =>
      have : ∃ e ∈ l, e ∉ uniq := by
        obtain ⟨e, he, hne⟩ := h
        rcases List.mem_cons.1 he with rfl | he
        · rw [none_of e hne] at hx; cases hx
        · exact ⟨e, he, hne⟩
      simp only [bind, Except.bind]
      rw [ih this]

theorem range_getD (l : List Vec) : ((List.range l.length).map fun i => (l[i]?).getD 0) = l := by
  apply List.ext_getElem?
  intro i
  rw [List.getElem?_map]
  by_cases h : i < l.length
  · simp [List.getElem?_range h, h]
  · simp [List.getElem?_eq_none (by simpa using h : (List.range l.length).length ≤ i),
      List.getElem?_eq_none (by omega : l.length ≤ i)]

theorem tensor_six (s : Mat) (h : s.transpose = s) :
    Six.tensor ⟨s 0 0, s 1 1, s 2 2, s 0 1, s 1 2, s 0 2⟩ = s := by
  have h1 : ∀ i j, s j i = s i j := fun i j => congrFun (congrFun h i) j
  ext i j
  fin_cases i <;> fin_cases j <;> simp [Six.tensor] <;> exact h1 _ _

/-- What `eval` returns, for any order of the atoms in LAMMPS. -/
theorem eval_value (l : Library) (u : Units) (elements : List String) (hn : elements.Nodup) (m : Machine) (st : Cell)
    (hd : st.axis.det ≠ 0) (hv : TurnsWith l.potential) (hw : WellFormed l.potential) (atoms : List (ℕ × Vec))
    (ha : AtomsOf elements st atoms) :
    let r := rotation st.axis
    let m' : Machine := ⟨triAxis st.axis, atoms.map fun x => (x.1, r.mulVec x.2)⟩
    (eval l u elements m st).1 = m' ∧
    (eval l u elements m st).2 = .ok ((l.potential st.axis atoms).energy,
      (l.order m').map (fun i => ((l.potential st.axis atoms).forces[i]?).getD 0),
      sixOf (l.potential st.axis atoms).stress) := by
  intro r m'
  obtain ⟨h1, h2⟩ := ha
  obtain ⟨hRA, hRR, -, -, -⟩ := C44_orthogonal st.axis hd
  have hpos := (C44_metric st.axis hd).2.1
  have htri := (C44_metric st.axis hd).1
  have hdet : (triAxis st.axis).full.det ≠ 0 := by
    rw [← hRA, Matrix.det_mul]
    refine mul_ne_zero ?_ hd
    intro h0
    have := congrArg Matrix.det hRR
    rw [Matrix.det_mul, h0, mul_zero, Matrix.det_one] at this
    exact zero_ne_one this
  set types := atoms.map fun x => x.1 - 1 with htypes
  have hrec : recast elements st.elements = .ok types := by
    apply recast_ok elements hn
    rw [htypes, List.forall₂_map_right_iff]
    refine h1.imp ?_
    rintro e x ⟨k, hk, hx⟩
    rw [hx, Nat.add_sub_cancel]
    exact hk
  have hlen : types.length = (st.positions.map fun p => (triAxis st.axis).full.mulVec p).length := by
    simp [htypes, h2.length_eq]
  have hzip : List.zipWith (fun t x => (t + 1, x)) types (st.positions.map fun p => (triAxis st.axis).full.mulVec p) =
      atoms.map fun x => (x.1, r.mulVec x.2) := by
    rw [htypes, List.zipWith_map_left, List.zipWith_map_right]
    have key : ∀ (es : List String) (ps : List Vec) (as : List (ℕ × Vec)),
        List.Forall₂ (fun e (x : ℕ × Vec) => ∃ k : ℕ, elements[k]? = some e ∧ x.1 = k + 1) es as →
        List.Forall₂ (fun p (x : ℕ × Vec) => x.2 = st.axis.mulVec p) ps as →
        List.zipWith (fun (a : ℕ × Vec) b => (a.1 - 1 + 1, (triAxis st.axis).full.mulVec b)) as ps =
          as.map fun x => (x.1, r.mulVec x.2) := by
      intro es ps as g1 g2
      induction g1 generalizing ps with
      | nil => simp
      | cons hx _ ih =>
        cases g2 with
        | cons hp g2 =>
          obtain ⟨k, -, hx⟩ := hx
          rw [List.zipWith_cons_cons, List.map_cons, ih _ g2, hx, hp, Matrix.mulVec_mulVec, hRA, Nat.add_sub_cancel]
    exact key _ _ _ h1 h2
  have hm : (commands types (triAxis st.axis) (st.positions.map fun p => (triAxis st.axis).full.mulVec p)).foldl
      Machine.apply m = m' := by
    rw [commands_fold _ _ _ _ hlen, hzip]
  have hval : l.potential m'.box.full m'.atoms = ⟨(l.potential st.axis atoms).energy,
      (l.potential st.axis atoms).forces.map r.mulVec,
      r * (l.potential st.axis atoms).stress * r.transpose⟩ := by
    change l.potential (triAxis st.axis).full (atoms.map fun x => (x.1, r.mulVec x.2)) = _
    rw [← hRA]
    exact hv _ _ _ hRR
  have hsym : (r * (l.potential st.axis atoms).stress * r.transpose).transpose =
      r * (l.potential st.axis atoms).stress * r.transpose := by
    rw [Matrix.transpose_mul, Matrix.transpose_mul, Matrix.transpose_transpose, (hw _ _).2, Matrix.mul_assoc]
  have hstress : (l.stress u m').tensor = r * (l.potential st.axis atoms).stress * r.transpose := by
    rw [← tensor_six _ hsym]
    have he : ∀ i j, l.pressure u m' i j * (m'.box.full.det / u.evToGPa / 10000) =
        (r * (l.potential st.axis atoms).stress * r.transpose) i j := by
      intro i j
      unfold Library.pressure
      rw [hval, Matrix.smul_apply, smul_eq_mul]
      have hd' : m'.box.full.det ≠ 0 := hdet
      have hu := u.pos.ne'
      field_simp
    unfold Library.stress
    simp only [he]
  have hforces : ∀ (rec : Vec → Vec), (∀ x, rec (r.mulVec x) = x) → rec 0 = 0 →
      (l.forces m').map rec = (l.order m').map fun i => ((l.potential st.axis atoms).forces[i]?).getD 0 := by
    intro rec hrec h0
    unfold Library.forces
    rw [hval, List.map_map]
    apply List.map_congr_left
    intro i _
    simp only [Function.comp, List.getElem?_map]
    cases (l.potential st.axis atoms).forces[i]? with
    | none => simpa using h0
    | some x => simpa using hrec x
  unfold eval
  rw [hrec]
  dsimp only
  rw [hm]
  refine ⟨rfl, ?_⟩
  by_cases hr : rotation st.axis ≠ 1
  · rw [if_pos hr, if_pos hr, hstress, kron_eq, hval]
    rw [hforces (fun x => recoverForce x r) (fun x => by
      unfold recoverForce; rw [Matrix.mulVec_mulVec, hRR, Matrix.one_mulVec]) (by simp [recoverForce])]
    have : r.transpose * (r * (l.potential st.axis atoms).stress * r.transpose) * r = (l.potential st.axis atoms).stress := by
      rw [Matrix.mul_assoc, Matrix.mul_assoc, hRR, Matrix.mul_one, ← Matrix.mul_assoc, hRR, Matrix.one_mul]
    rw [this]
  · rw [if_neg hr, if_neg hr, hstress, hval]
    have h1 : r = 1 := by simpa using hr
    have := hforces id (fun x => by rw [h1]; simp) rfl
    rw [List.map_id] at this
    rw [this, h1]
    simp

/-- **C111** Whatever was evaluated or sent to LAMMPS before, evaluating a structure gives the energy, the forces of the
atoms in the order of the structure and the stress of the potential for that structure, in the coordinates of the
structure, provided that LAMMPS lists its atoms by identifiers. -/
theorem C111_eval_partial (l : Library) (u : Units) (elements : List String) (hn : elements.Nodup) (m : Machine) (st : Cell)
    (hd : st.axis.det ≠ 0) (hv : TurnsWith l.potential) (hw : WellFormed l.potential)
    (ho : ∀ m, l.order m = List.range m.atoms.length) (atoms : List (ℕ × Vec)) (ha : AtomsOf elements st atoms) :
    (eval l u elements m st).2 = .ok ((l.potential st.axis atoms).energy, (l.potential st.axis atoms).forces,
      ⟨(l.potential st.axis atoms).stress 0 0, (l.potential st.axis atoms).stress 1 1,
        (l.potential st.axis atoms).stress 2 2, (l.potential st.axis atoms).stress 0 1,
        (l.potential st.axis atoms).stress 1 2, (l.potential st.axis atoms).stress 2 0⟩) := by
  have h := (eval_value l u elements hn m st hd hv hw atoms ha).2
  rw [h, ho]
  have : (atoms.map fun x => (x.1, (rotation st.axis).mulVec x.2)).length =
      (l.potential st.axis atoms).forces.length := by simp [(hw st.axis atoms).1]
  dsimp only
  rw [this, range_getD]
  rfl

/-- **C111** Many structures evaluated with one object have the values that they have one by one, in their order. -/
theorem C111_multiple_partial (l : Library) (u : Units) (elements : List String) (hn : elements.Nodup) (m : Machine)
    (sts : List Cell) (hd : ∀ st ∈ sts, st.axis.det ≠ 0) (hv : TurnsWith l.potential) (hw : WellFormed l.potential)
    (ho : ∀ m, l.order m = List.range m.atoms.length) (atoms : List (List (ℕ × Vec)))
    (ha : List.Forall₂ (AtomsOf elements) sts atoms) :
    ∃ vs, (evalMultiple l u elements m sts).2 = .ok vs ∧
      List.Forall₂ (fun (p : Cell × List (ℕ × Vec)) (v : ℝ × List Vec × Six) =>
        v.1 = (l.potential p.1.axis p.2).energy ∧ v.2.1 = (l.potential p.1.axis p.2).forces ∧
        v.2.2.xx = (l.potential p.1.axis p.2).stress 0 0 ∧ v.2.2.yy = (l.potential p.1.axis p.2).stress 1 1 ∧
        v.2.2.zz = (l.potential p.1.axis p.2).stress 2 2 ∧ v.2.2.xy = (l.potential p.1.axis p.2).stress 0 1 ∧
        v.2.2.yz = (l.potential p.1.axis p.2).stress 1 2 ∧ v.2.2.zx = (l.potential p.1.axis p.2).stress 2 0)
        (sts.zip atoms) vs := by
  induction ha generalizing m with
  | nil => exact ⟨[], rfl, .nil⟩
  | @cons st as sts atoms h _ ih =>
    have h1 := C111_eval_partial l u elements hn m st (hd st (by simp)) hv hw ho as h
    rw [evalMultiple]
    rcases he : eval l u elements m st with ⟨m', r⟩
    rw [he] at h1
    dsimp only at h1
    subst h1
    obtain ⟨vs, hvs, hf⟩ := ih m' fun st hst => hd st (by simp [hst])
    rcases hm : evalMultiple l u elements m' sts with ⟨m'', r'⟩
    rw [hm] at hvs
    dsimp only at hvs
    subst hvs
    dsimp only
    rw [hm]
    exact ⟨_, rfl, .cons ⟨rfl, rfl, rfl, rfl, rfl, rfl, rfl, rfl⟩ hf⟩

/-- **C111** A structure with an element that the potential does not have is refused, and LAMMPS is left as it was. -/
theorem C111_unknown (l : Library) (u : Units) (elements : List String) (m : Machine) (st : Cell)
    (h : ∃ e ∈ st.elements, e ∉ elements) : eval l u elements m st = (m, .error .keyError) := by
  unfold eval
  rw [recast_error elements st.elements h]

/-- A potential with springs to the origin, whose stress is the metric of the cell. -/
noncomputable def springs : Potential := fun a atoms =>
  ⟨(atoms.map fun x => x.2 ⬝ᵥ x.2).sum, atoms.map fun x => -(2 : ℝ) • x.2, a * a.transpose⟩

theorem springs_turn : TurnsWith springs := by
  intro r a atoms hr
  unfold springs
  have hdot : ∀ x : Vec, r.mulVec x ⬝ᵥ r.mulVec x = x ⬝ᵥ x := by
    intro x
    rw [Matrix.dotProduct_mulVec, Matrix.vecMul_mulVec, hr, Matrix.vecMul_one]
  simp only [List.map_map, Values.mk.injEq]
  refine ⟨?_, ?_, ?_⟩
  · congr 1
    apply List.map_congr_left
    intro x _
    exact hdot x.2
  · apply List.map_congr_left
    intro x _
    simp only [Function.comp, Matrix.mulVec_smul]
  · rw [Matrix.transpose_mul]
    simp only [Matrix.mul_assoc]

theorem springs_form : WellFormed springs := by
  intro a atoms
  simp [springs, Matrix.transpose_mul]

/-- Two atoms in a cube: LAMMPS with springs meets the hypotheses. -/
noncomputable def twoAtoms : Cell := ⟨1, ["Mg", "O"], [0, fun _ => 1 / 2]⟩

theorem twoAtoms_atoms : AtomsOf ["O", "Mg"] twoAtoms [(2, 0), (1, fun _ => 1 / 2)] := by
  refine ⟨.cons ⟨1, rfl, rfl⟩ (.cons ⟨0, rfl, rfl⟩ .nil), .cons ?_ (.cons ?_ .nil)⟩ <;> simp [twoAtoms]

example : twoAtoms.axis.det ≠ 0 ∧ TurnsWith springs ∧ WellFormed springs ∧
    AtomsOf ["O", "Mg"] twoAtoms [(2, 0), (1, fun _ => 1 / 2)] :=
  ⟨by simp [twoAtoms], springs_turn, springs_form, twoAtoms_atoms⟩

/-- **C111, violation** The forces are read in the local order of LAMMPS, which is not the order of the identifiers
once LAMMPS has sorted its atoms: then atoms get the forces of other atoms (finding F193). -/
theorem C111_order_violation : ∃ (l : Library) (st : Cell) (atoms : List (ℕ × Vec)) (fs : List Vec) (u : Units),
    st.axis.det ≠ 0 ∧ TurnsWith l.potential ∧ WellFormed l.potential ∧
    (∀ m, (l.order m).Perm (List.range m.atoms.length)) ∧ AtomsOf ["O", "Mg"] st atoms ∧
    (l.potential st.axis atoms).forces = fs ∧
    ∀ m, ∃ e s, (eval l u ["O", "Mg"] m st).2 = .ok (e, fs.reverse, s) ∧ fs.reverse ≠ fs := by
  refine ⟨⟨springs, fun m => (List.range m.atoms.length).reverse⟩, twoAtoms, _, _, ⟨1, one_pos⟩, by simp [twoAtoms],
    springs_turn, springs_form, fun m => List.reverse_perm _, twoAtoms_atoms, rfl, fun m => ?_⟩
  have h := (eval_value ⟨springs, fun m => (List.range m.atoms.length).reverse⟩ ⟨1, one_pos⟩ ["O", "Mg"] (by decide) m
    twoAtoms (by simp [twoAtoms]) springs_turn springs_form _ twoAtoms_atoms).2
  refine ⟨(springs twoAtoms.axis [(2, 0), (1, fun _ => 1 / 2)]).energy,
    sixOf (springs twoAtoms.axis [(2, 0), (1, fun _ => 1 / 2)]).stress, h, ?_⟩
  · intro h
    have h := congrArg List.head? h
    simp [springs] at h
    have h := congrFun h 0
    norm_num at h

end Verif.LammpsEval
