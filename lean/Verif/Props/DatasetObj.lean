import Verif.Lemmas.DatasetObj

/-!
# C06: atomic energies are subtracted exactly once

The property is false of the code as it stands (`C06_single_file_twice`,
`C06_parse_twice_never`); what holds is proved as `C06_history` (an exact account of how often the
atomic energies are subtracted by any history) and `C06_exactly_once_partial`.
-/

namespace Verif.Dataset
open Spec
variable {K : Type}

/-- Abstract bookkeeping: how many times the atomic energies have been subtracted, and whether the
object remembers it.  Slicing and splitting return fresh objects that do not remember. -/
def Op.track (s : ℕ × Bool) : Op → ℕ × Bool
  | .subtract => if s.2 then s else (s.1 + 1, true)
  | .sort => s
  | .slice _ _ => (s.1, false)
  | .splitTrain _ => (s.1, false)
  | .splitTest _ => (s.1, false)

/-- The object holds (a sub-collection of) the records `rs`, each with its atomic energies
subtracted `k` times. -/
def HasSubtracted [Ring K] (o : Obj K) (rs : List (Rec K)) (ae : List K) (k : ℕ) : Prop :=
  ∀ d, o.dft = some d → ∃ rs' : List (Rec K), rs'.Subperm rs ∧ Represents d (rs'.map (·.subtracted k ae))

private theorem select_sub {d : DFT K} {rs : List (Rec K)} (h : Represents d rs) {ids : List ℕ}
    (hn : ids.Nodup) (hlt : ∀ i ∈ ids, i < rs.length) (hpos : ∀ r ∈ rs, 0 < r.natoms)
    {d' : DFT K} (e : select d ids = .ok d') :
    ∃ rs' : List (Rec K), rs'.Subperm rs ∧ Represents d' rs' := by
  by_cases hne : ∃ r ∈ ids.filterMap (rs[·]?), 0 < r.natoms
  · obtain ⟨d'', e', hr, -⟩ := select_represents h hlt hne
    rw [e] at e'
    cases e'
    refine ⟨_, ?_, hr⟩
    have hs : ids.Subperm (List.range rs.length) := by
      apply List.subperm_of_subset hn
      intro i hi; exact List.mem_range.mpr (hlt i hi)
    obtain ⟨l, hp, hsl⟩ := hs
    have h1 := hp.filterMap (rs[·]?)
    have h2 := hsl.filterMap (rs[·]?)
    rw [range_filterMap_get] at h2
    exact ⟨_, h1, h2⟩
  · exfalso
    have hnil : ids = [] := by
      cases ids with
      | nil => rfl
      | cons i l =>
        exfalso
        apply hne
        have hi : i < rs.length := hlt i (by simp)
        exact ⟨rs[i], List.mem_filterMap.mpr ⟨i, by simp, List.getElem?_eq_getElem hi⟩,
          hpos _ (List.getElem_mem hi)⟩
    subst hnil
    have : select d [] = .error .indexError := by
      unfold select forceStressIds
      have g : ∀ {α : Type} (xs : List α), gather xs [] = .ok [] := fun _ => rfl
      simp only [g, bind, Except.bind, pure, Except.pure]
      rfl
    rw [this] at e
    cases e

private theorem split_sub {d : DFT K} {rs : List (Rec K)} (h : Represents d rs)
    (hpos : ∀ r ∈ rs, 0 < r.natoms) {r : ℚ} {a b : Option (DFT K)}
    (e : splitDFT d r = .ok (a, b)) :
    (∀ d', a = some d' → ∃ rs' : List (Rec K), rs'.Subperm rs ∧ Represents d' rs') ∧
    ((0 ≤ r ∧ r ≤ 1) → ∀ d', b = some d' → ∃ rs' : List (Rec K), rs'.Subperm rs ∧ Represents d' rs') := by
  unfold splitDFT at e
  have hlen : d.energies.length = rs.length := by rw [h.2.1]; simp
  rw [hlen] at e
  cases hs : Split.splitIds rs.length r with
  | error err => rw [hs] at e; cases e
  | ok p =>
    obtain ⟨tr, te⟩ := p
    rw [hs] at e
    simp only [bind, Except.bind, pure, Except.pure] at e
    have htr : tr.Nodup ∧ ∀ i ∈ tr, i < rs.length := by
      unfold Split.splitIds at hs
      simp only [bind, Except.bind, pure, Except.pure] at hs
      split at hs
      · cases hs
      · split at hs
        · cases hs
        · rename_i raw _ _ ids _
          simp only [Except.ok.injEq, Prod.mk.injEq] at hs
          obtain ⟨h1, h2⟩ := hs
          subst h1
          refine ⟨(whereTrue_sorted _).imp (fun h => Nat.ne_of_lt h), ?_⟩
          intro i hi
          rw [mem_whereTrue] at hi
          obtain ⟨hi, -⟩ := List.getElem?_eq_some_iff.mp hi
          have : ∀ (l : List ℕ) (m : List Bool),
              (l.foldl (fun m i => m.set i false) m).length = m.length := by
            intro l
            induction l with
            | nil => intro m; rfl
            | cons a l ih => intro m; rw [List.foldl_cons, ih]; simp
          rw [this] at hi
          simpa using hi
    split at e
    · cases e
    · rename_i oa ha
      split at e
      · cases e
      · rename_i ob hb
        simp only [Except.ok.injEq, Prod.mk.injEq] at e
        obtain ⟨rfl, rfl⟩ := e
        have fin : ∀ {ids : List ℕ} {o : Option (DFT K)}, ids.Nodup → (∀ i ∈ ids, i < rs.length) →
            selectOpt d ids = .ok o → ∀ d', o = some d' → ∃ rs' : List (Rec K), rs'.Subperm rs ∧ Represents d' rs' := by
          intro ids o hn hlt ho d' hd'
          subst hd'
          unfold selectOpt at ho
          split at ho
          · cases hsel : select d ids with
            | error err => rw [hsel] at ho; cases ho
            | ok d'' =>
              rw [hsel] at ho
              simp only [Except.map, Except.ok.injEq, Option.some.injEq] at ho
              subst ho
              exact select_sub h hn hlt hpos hsel
          · cases ho
        refine ⟨fin htr.1 htr.2 ha, ?_⟩
        rintro ⟨h0, h1⟩
        obtain ⟨a', b', e', p, -⟩ := Split.C01_split_partition rs.length r h0 h1
        rw [hs] at e'
        cases e'
        exact fin (p.2.1.imp (fun h => Nat.ne_of_lt h)) (fun i hi => (p.2.2.2 i).mpr (.inr hi)) hb

/-- A split ratio used in a history lies in `[0,1]`. -/
def Op.ok : Op → Prop
  | .splitTrain r => 0 ≤ r ∧ r ≤ 1
  | .splitTest r => 0 ≤ r ∧ r ≤ 1
  | _ => True

private theorem map_sub_subperm [Ring K] {S : List (Rec K)} {rs : List (Rec K)} {k : ℕ} {ae : List K}
    (h : S.Subperm (rs.map (·.subtracted k ae))) :
    ∃ rs' : List (Rec K), rs'.Subperm rs ∧ S = rs'.map (·.subtracted k ae) := by
  obtain ⟨l, hl, hs⟩ := h
  obtain ⟨m, hm, rfl⟩ := List.sublist_map_iff.mp hs
  have h2 : Relation.Comp (fun a b : List (Rec K) => a = b.map (fun r => r.subtracted k ae)) List.Perm S m := by
    rw [List.eq_map_comp_perm]; exact hl.symm
  obtain ⟨m', rfl, hp⟩ := h2
  exact ⟨m', hp.subperm.trans hm.subperm, rfl⟩

/-- **C06 (full account).** For every data set, every history of subtract / sort / slice / split
requests and every behaviour of `argsort`: if the history does not raise, the final object holds a
sub-collection of the original records, each with its atomic energies subtracted exactly as many
times as the bookkeeping `Op.track` says. -/
theorem C06_history [Ring K] (argsort : List ℕ → List ℕ) (hs : ∀ l, IsArgsort l (argsort l))
    (ae : List K) (rs : List (Rec K)) (hpos : ∀ r ∈ rs, 0 < r.natoms)
    (hl : ∀ r ∈ rs, r.st.nAtoms.length = ae.length) :
    ∀ (ops : List Op) (o o' : Obj K) (k : ℕ), (∀ op ∈ ops, op.ok) →
      HasSubtracted o rs ae k → run argsort ae o ops = .ok o' →
      HasSubtracted o' rs ae (ops.foldl Op.track (k, o.finished)).1 ∧
      o'.finished = (ops.foldl Op.track (k, o.finished)).2
  | [], o, o', k, _, h, e => by
    simp only [run, Except.ok.injEq] at e
    subst e
    exact ⟨h, rfl⟩
  | op :: ops, o, o', k, hok, h, e => by
    unfold run at e
    split at e
    case h_2 => cases e
    case h_1 o1 hstep =>
    have main : HasSubtracted o1 rs ae (Op.track (k, o.finished) op).1 ∧
        o1.finished = (Op.track (k, o.finished) op).2 := by
      have hposk : ∀ (rs' : List (Rec K)), rs'.Subperm rs →
          ∀ r ∈ rs'.map (·.subtracted k ae), 0 < r.natoms := by
        intro rs' hsub r hr
        obtain ⟨r', hr', rfl⟩ := List.mem_map.mp hr
        exact hpos r' (hsub.subset hr')
      cases op with
      | subtract =>
        simp only [step, subtract] at hstep
        cases hd : o.dft with
        | none => rw [hd] at hstep; cases hstep
        | some d =>
          rw [hd] at hstep
          simp only at hstep
          split at hstep
          · rename_i hfin
            cases hstep
            simp only [Op.track, hfin, if_true]
            exact ⟨h, trivial⟩
          · rename_i hfin
            obtain ⟨rs', hsub, hrep⟩ := h d hd
            obtain ⟨d', e', hr', -⟩ := applyAtomicEnergy_represents (ae := ae) hrep (by
              intro r hr
              obtain ⟨r', hr', rfl⟩ := List.mem_map.mp hr
              exact hl r' (hsub.subset hr'))
            rw [e'] at hstep
            simp only [bind, Except.bind, pure, Except.pure, Except.ok.injEq] at hstep
            subst hstep
            simp only [Op.track, hfin]
            refine ⟨?_, rfl⟩
            intro d'' hd''
            simp only [Option.some.injEq] at hd''
            subst hd''
            refine ⟨rs', hsub, ?_⟩
            rw [List.map_map] at hr'
            have : ((fun x : Rec K => x.subtracted 1 ae) ∘ fun x : Rec K => x.subtracted k ae)
                = fun x : Rec K => x.subtracted (k + 1) ae := by
              funext r; exact subtracted_subtracted k 1 ae r
            rw [this] at hr'
            exact hr'
      | sort =>
        simp only [step, sortObj] at hstep
        cases hd : o.dft with
        | none => rw [hd] at hstep; cases hstep
        | some d =>
          rw [hd] at hstep
          simp only at hstep
          obtain ⟨rs', hsub, hrep⟩ := h d hd
          cases hsort : sortDFT argsort d with
          | error err => rw [hsort] at hstep; cases hstep
          | ok d' =>
            rw [hsort] at hstep
            simp only [bind, Except.bind, pure, Except.pure, Except.ok.injEq] at hstep
            subst hstep
            simp only [Op.track]
            refine ⟨?_, trivial⟩
            intro d'' hd''
            simp only [Option.some.injEq] at hd''
            subst hd''
            have hp := (hs d.totalNAtoms).1
            have htl : d.totalNAtoms.length = (rs'.map (·.subtracted k ae)).length := by
              rw [hrep.2.2.2.2.2.1]; simp
            rw [htl] at hp
            obtain ⟨S, hS, hSr⟩ := select_sub hrep (hp.nodup_iff.mpr List.nodup_range)
              (fun i hi => List.mem_range.mp (hp.mem_iff.mp hi)) (hposk rs' hsub) hsort
            obtain ⟨rs'', h1, rfl⟩ := map_sub_subperm hS
            exact ⟨rs'', h1.trans hsub, hSr⟩
      | slice b e2 =>
        simp only [step, sliceObj] at hstep
        cases hd : o.dft with
        | none => rw [hd] at hstep; cases hstep
        | some d =>
          rw [hd] at hstep
          simp only [Except.ok.injEq] at hstep
          subst hstep
          simp only [Op.track]
          refine ⟨?_, trivial⟩
          intro d'' hd''
          simp only [Option.some.injEq] at hd''
          subst hd''
          obtain ⟨rs', hsub, hrep⟩ := h d hd
          refine ⟨slice rs' b e2, ?_, ?_⟩
          · refine List.Subperm.trans (List.Sublist.subperm ?_) hsub
            exact (List.drop_sublist _ _).trans (List.take_sublist _ _)
          · rw [← slice_map]; exact slice_represents hrep b e2
      | splitTrain r =>
        simp only [step, splitObj] at hstep
        cases hd : o.dft with
        | none => rw [hd] at hstep; cases hstep
        | some d =>
          rw [hd] at hstep
          simp only at hstep
          obtain ⟨rs', hsub, hrep⟩ := h d hd
          cases hsp : splitDFT d r with
          | error err => rw [hsp] at hstep; cases hstep
          | ok p =>
            obtain ⟨a, b⟩ := p
            rw [hsp] at hstep
            simp only [bind, Except.bind, pure, Except.pure, Except.map, Except.ok.injEq] at hstep
            subst hstep
            simp only [Op.track]
            refine ⟨?_, trivial⟩
            intro d'' hd''
            obtain ⟨S, hS, hSr⟩ := (split_sub hrep (hposk rs' hsub) hsp).1 d'' hd''
            obtain ⟨rs'', h1, rfl⟩ := map_sub_subperm hS
            exact ⟨rs'', h1.trans hsub, hSr⟩
      | splitTest r =>
        simp only [step, splitObj] at hstep
        cases hd : o.dft with
        | none => rw [hd] at hstep; cases hstep
        | some d =>
          rw [hd] at hstep
          simp only at hstep
          obtain ⟨rs', hsub, hrep⟩ := h d hd
          cases hsp : splitDFT d r with
          | error err => rw [hsp] at hstep; cases hstep
          | ok p =>
            obtain ⟨a, b⟩ := p
            rw [hsp] at hstep
            simp only [bind, Except.bind, pure, Except.pure, Except.map, Except.ok.injEq] at hstep
            subst hstep
            simp only [Op.track]
            refine ⟨?_, trivial⟩
            intro d'' hd''
            obtain ⟨S, hS, hSr⟩ := (split_sub hrep (hposk rs' hsub) hsp).2
              (hok (.splitTest r) (by simp)) d'' hd''
            obtain ⟨rs'', h1, rfl⟩ := map_sub_subperm hS
            exact ⟨rs'', h1.trans hsub, hSr⟩
    obtain ⟨m1, m2⟩ := main
    have ih := C06_history argsort hs ae rs hpos hl ops o1 o' _
      (fun op hop => hok op (by simp [hop])) m1 e
    rw [m2] at ih
    exact ih

/-- Operations that derive a new data set or reorder it, but do not touch energies. -/
def Op.derives : Op → Prop
  | .subtract => False
  | _ => True

/-- Operations that keep working on the same object. -/
def Op.sameObject : Op → Prop
  | .subtract => True
  | .sort => True
  | _ => False

private theorem track_derives (ops : List Op) (h : ∀ op ∈ ops, op.derives) (k : ℕ) (f : Bool) :
    (ops.foldl Op.track (k, f)).1 = k ∧ (f = false → (ops.foldl Op.track (k, f)).2 = false) := by
  induction ops generalizing f with
  | nil => simp
  | cons op ops ih =>
    have h1 := h op (by simp)
    have h2 := fun f => ih (fun op hop => h op (by simp [hop])) f
    rw [List.foldl_cons]
    cases op with
    | subtract => exact absurd h1 id
    | sort => exact h2 f
    | slice b e => exact ⟨(h2 false).1, fun _ => (h2 false).2 rfl⟩
    | splitTrain r => exact ⟨(h2 false).1, fun _ => (h2 false).2 rfl⟩
    | splitTest r => exact ⟨(h2 false).1, fun _ => (h2 false).2 rfl⟩

private theorem track_same (ops : List Op) (h : ∀ op ∈ ops, op.sameObject) (k : ℕ) :
    ops.foldl Op.track (k, true) = (k, true) := by
  induction ops with
  | nil => rfl
  | cons op ops ih =>
    have h1 := h op (by simp)
    rw [List.foldl_cons]
    have h2 := ih (fun op hop => h op (by simp [hop]))
    cases op with
    | subtract => exact h2
    | sort => exact h2
    | slice b e => exact absurd h1 id
    | splitTrain r => exact absurd h1 id
    | splitTest r => exact absurd h1 id

/-- **C06 (what holds).** Full statement: *for every history* the energies are reduced exactly once.
Proved here: for every history that first derives sub-data sets in any way, then requests the
subtraction, then works on the same object (any number of further subtraction requests and sorts)
and finally derives batches/subsets from it without requesting subtraction again.
Missing: histories that request subtraction again after slicing or splitting (false, see
`C06_single_file_twice`). -/
theorem C06_exactly_once_partial [Ring K] (argsort : List ℕ → List ℕ)
    (hs : ∀ l, IsArgsort l (argsort l)) (ae : List K) (rs : List (Rec K))
    (hpos : ∀ r ∈ rs, 0 < r.natoms) (hl : ∀ r ∈ rs, r.st.nAtoms.length = ae.length)
    (d : DFT K) (hd : Represents d rs) (pre mid post : List Op)
    (hpre : ∀ op ∈ pre, op.derives ∧ op.ok) (hmid : ∀ op ∈ mid, op.sameObject)
    (hpost : ∀ op ∈ post, op.derives ∧ op.ok) (o' : Obj K)
    (e : run argsort ae { dft := some d } (pre ++ [.subtract] ++ mid ++ post) = .ok o') :
    ∀ d', o'.dft = some d' → ∃ rs' : List (Rec K), rs'.Subperm rs ∧
      d'.energies = rs'.map (fun r => r.energy - atomicSum r.st.nAtoms ae) := by
  have h0 : HasSubtracted ({ dft := some d } : Obj K) rs ae 0 := by
    intro d' hd'
    simp only [Option.some.injEq] at hd'
    subst hd'
    refine ⟨rs, List.Subperm.refl rs, ?_⟩
    have : rs.map (·.subtracted 0 ae) = rs := by
      simp [Rec.subtracted]
    rw [this]; exact hd
  have hok : ∀ op ∈ pre ++ [Op.subtract] ++ mid ++ post, op.ok := by
    intro op hop
    simp only [List.mem_append, List.mem_singleton] at hop
    rcases hop with ((h | h) | h) | h
    · exact (hpre op h).2
    · subst h; trivial
    · have := hmid op h
      cases op <;> trivial
    · exact (hpost op h).2
  have := (C06_history argsort hs ae rs hpos hl _ _ o' 0 hok h0 e).1
  have hk : ((pre ++ [Op.subtract] ++ mid ++ post).foldl Op.track (0, false)).1 = 1 := by
    rw [List.foldl_append, List.foldl_append, List.foldl_append]
    obtain ⟨p1, p2⟩ := track_derives pre (fun op h => (hpre op h).1) 0 false
    have p2 := p2 rfl
    have : pre.foldl Op.track (0, false) = (0, false) := Prod.ext p1 p2
    rw [this]
    simp only [List.foldl_cons, List.foldl_nil, Op.track]
    rw [if_neg (by simp), track_same mid hmid]
    exact (track_derives post (fun op h => (hpost op h).1) 1 true).1
  rw [hk] at this
  intro d' hd'
  obtain ⟨rs', h1, h2⟩ := this d' hd'
  refine ⟨rs', h1, ?_⟩
  rw [h2.2.1, List.map_map]
  apply List.map_congr_left
  intro r _
  simp [Rec.subtracted]

/-- `insArgsort` is a sorting permutation for every key list, so the hypothesis on `argsort` can be
met. -/
theorem insArgsort_isArgsort (l : List ℕ) : IsArgsort l (insArgsort l) := by
  constructor
  · exact List.perm_insertionSort _ _
  · let r : ℕ → ℕ → Prop := fun i j => l[i]?.getD 0 ≤ l[j]?.getD 0
    have : Std.Total r := ⟨fun a b => Nat.le_total _ _⟩
    have : IsTrans ℕ r := ⟨fun a b c h1 h2 => Nat.le_trans h1 h2⟩
    have hp : (insArgsort l).Pairwise r := List.pairwise_insertionSort r _
    rw [List.pairwise_filterMap]
    refine hp.imp ?_
    intro a b hab x hx y hy
    have hx' : l[a]? = some x := hx
    have hy' : l[b]? = some y := hy
    simp only [r, hx', hy', Option.getD_some] at hab
    exact hab

example : (∀ l, IsArgsort l (insArgsort l)) ∧ (∀ r ∈ exRecs, 0 < r.natoms) ∧
    (∀ r ∈ exRecs, r.st.nAtoms.length = [(-1 : ℚ), 2].length) ∧ Represents exDFT exRecs :=
  ⟨insArgsort_isArgsort, by decide +kernel, by decide +kernel, exDFT_represents⟩
example : ((run insArgsort [-1, 2] { dft := some exDFT }
    [.sort, .slice 1 3, .subtract, .subtract, .sort, .splitTest (1/2)]).toOption.bind
      (·.dft)).map (·.energies) = some [-3] := by decide +kernel

/-- **C06, first violation.** `set_datasets_from_single_fileset` with one data file: for every raw
data set with both sides non-empty, the energies that reach the regression have the atomic energies
subtracted **twice**. -/
theorem C06_single_file_twice [Ring K] (raw : DFT K) (rs : List (Rec K)) (h : Represents raw rs)
    (hpos : ∀ r ∈ rs, 0 < r.natoms) (ae : List K)
    (hl : ∀ r ∈ rs, r.st.nAtoms.length = ae.length) (r : ℚ) (h0 : 0 ≤ r) (h1 : r ≤ 1)
    (train test : Obj K) (e : fromSingleFile raw ae r = .ok (train, test)) :
    ∀ d', train.dft = some d' ∨ test.dft = some d' → ∃ rs' : List (Rec K), rs'.Subperm rs ∧
      d'.energies = rs'.map (fun r => r.energy - 2 * atomicSum r.st.nAtoms ae) := by
  have h0' : HasSubtracted ({ dft := some raw } : Obj K) rs ae 0 := by
    intro d' hd'
    simp only [Option.some.injEq] at hd'
    subst hd'
    refine ⟨rs, List.Subperm.refl rs, ?_⟩
    have : rs.map (·.subtracted 0 ae) = rs := by
      simp [Rec.subtracted]
    rw [this]; exact h
  have runs : run insArgsort ae { dft := some raw } [.subtract, .splitTrain r, .subtract] = .ok train ∧
      run insArgsort ae { dft := some raw } [.subtract, .splitTest r, .subtract] = .ok test := by
    unfold fromSingleFile parse at e
    simp only [bind, Except.bind, pure, Except.pure] at e
    cases h1 : subtract ({ dft := some raw } : Obj K) ae with
    | error x => rw [h1] at e; cases e
    | ok o1 =>
      rw [h1] at e
      simp only at e
      cases h2 : splitObj o1 r with
      | error x => rw [h2] at e; cases e
      | ok p =>
        rw [h2] at e
        obtain ⟨a, b⟩ := p
        simp only at e
        cases h3 : subtract a ae with
        | error x => rw [h3] at e; cases e
        | ok a' =>
          rw [h3] at e
          simp only at e
          cases h4 : subtract b ae with
          | error x => rw [h4] at e; cases e
          | ok b' =>
            rw [h4] at e
            simp only [Except.ok.injEq, Prod.mk.injEq] at e
            obtain ⟨rfl, rfl⟩ := e
            constructor
            · simp only [run, step, h1, h2, h3, Except.map]
            · simp only [run, step, h1, h2, h4, Except.map]
  intro d' hd'
  have fin : ∀ o : Obj K, HasSubtracted o rs ae 2 → o.dft = some d' → ∃ rs' : List (Rec K), rs'.Subperm rs ∧
      d'.energies = rs'.map (fun r => r.energy - 2 * atomicSum r.st.nAtoms ae) := by
    intro o ho hod
    obtain ⟨rs', h1, h2⟩ := ho d' hod
    refine ⟨rs', h1, ?_⟩
    rw [h2.2.1, List.map_map]
    apply List.map_congr_left
    intro r _
    simp [Rec.subtracted]
  rcases hd' with hd' | hd'
  · exact fin train (C06_history insArgsort insArgsort_isArgsort ae rs hpos hl _ _ train 0
      (by simp [Op.ok, h0, h1]) h0' runs.1).1 hd'
  · exact fin test (C06_history insArgsort insArgsort_isArgsort ae rs hpos hl _ _ test 0
      (by simp [Op.ok, h0, h1]) h0' runs.2).1 hd'

/-- Concrete instance: with atomic energies (-1, 2) the single training energy should be
`-1 - 2 = -3` (one O atom) but comes out as `-5`. -/
theorem C06_single_file_witness :
    (fromSingleFile exDFT [-1, 2] (1/3)).toOption.map (fun p => p.1.dft.map (·.energies))
      = some (some [-5]) := by decide +kernel

/-- **C06, second violation.** Parsing the files of a `Dataset` object again (for instance with new
parameters) leaves the raw energies: the flag of the first parse is still set, nothing is
subtracted. -/
theorem C06_parse_twice_never [Ring K] (raw raw2 : DFT K) (ae : List K) (o : Obj K)
    (e : parse { dft := none } raw ae = .ok o) :
    parse o raw2 ae = .ok { dft := some raw2, finished := true } := by
  unfold parse subtract at e
  simp only [Bool.false_eq_true, if_false] at e
  cases h : applyAtomicEnergy raw ae with
  | error x => rw [h] at e; cases e
  | ok d =>
    rw [h] at e
    simp only [bind, Except.bind, pure, Except.pure, Except.ok.injEq] at e
    subst e
    rfl

/-- `set_datasets_from_structures`: each side's energies are reduced exactly once. -/
theorem C06_from_structures_once [Ring K] (dft : DFT K) (rs : List (Rec K))
    (h : Represents dft rs) (hpos : ∀ r ∈ rs, 0 < r.natoms) (ae : List K)
    (hl : ∀ r ∈ rs, r.st.nAtoms.length = ae.length) (r : ℚ) (h0 : 0 ≤ r) (h1 : r ≤ 1)
    (train test : Obj K) (e : fromStructures dft ae r = .ok (train, test)) :
    ∀ d', train.dft = some d' ∨ test.dft = some d' → ∃ rs' : List (Rec K), rs'.Subperm rs ∧
      d'.energies = rs'.map (fun r => r.energy - atomicSum r.st.nAtoms ae) := by
  have runs : run insArgsort ae { dft := some dft } ([.splitTrain r] ++ [.subtract] ++ [] ++ []) = .ok train ∧
      run insArgsort ae { dft := some dft } ([.splitTest r] ++ [.subtract] ++ [] ++ []) = .ok test := by
    unfold fromStructures at e
    simp only [bind, Except.bind, pure, Except.pure] at e
    cases h2 : splitObj ({ dft := some dft } : Obj K) r with
    | error x => rw [h2] at e; cases e
    | ok p =>
      rw [h2] at e
      obtain ⟨a, b⟩ := p
      simp only at e
      cases h3 : subtract a ae with
      | error x => rw [h3] at e; cases e
      | ok a' =>
        rw [h3] at e
        simp only at e
        cases h4 : subtract b ae with
        | error x => rw [h4] at e; cases e
        | ok b' =>
          rw [h4] at e
          simp only [Except.ok.injEq, Prod.mk.injEq] at e
          obtain ⟨rfl, rfl⟩ := e
          constructor
          · simp only [List.append_nil, List.cons_append, List.nil_append, run, step, h2, h3, Except.map]
          · simp only [List.append_nil, List.cons_append, List.nil_append, run, step, h2, h4, Except.map]
  rintro d' (hd' | hd')
  · exact C06_exactly_once_partial insArgsort insArgsort_isArgsort ae rs hpos hl dft h [.splitTrain r] [] []
      (by simp [Op.derives, Op.ok, h0, h1]) (by simp) (by simp) train runs.1 d' hd'
  · exact C06_exactly_once_partial insArgsort insArgsort_isArgsort ae rs hpos hl dft h [.splitTest r] [] []
      (by simp [Op.derives, Op.ok, h0, h1]) (by simp) (by simp) test runs.2 d' hd'

example : (fromStructures exDFT [-1, 2] (1/3)).toOption.map
    (fun p => (p.1.dft.map (·.energies), p.2.dft.map (·.energies)))
      = some (some [-3], some [-3, -3]) := by decide +kernel

/-- A list of files: parsing subtracts, the later request is ignored; each side's energies are those
of its own files reduced exactly once. -/
theorem C06_from_file_list_once [Ring K] {F : Type} (load : List F → Except Err (DFT K))
    (files : List F) (ae : List K) (r : ℚ) (train test : Obj K)
    (e : fromFileList load files ae r = .ok (train, test)) :
    ∃ ftrain ftest rawTrain rawTest, Split.splitTrainTest files r = .ok (ftrain, ftest) ∧
      load ftrain = .ok rawTrain ∧ load ftest = .ok rawTest ∧
      applyAtomicEnergy rawTrain ae = (orErr .runtimeError train.dft) ∧
      applyAtomicEnergy rawTest ae = (orErr .runtimeError test.dft) := by
  unfold fromFileList at e
  simp only [bind, Except.bind, pure, Except.pure] at e
  cases h1 : Split.splitTrainTest files r with
  | error x => rw [h1] at e; cases e
  | ok p =>
    obtain ⟨ftrain, ftest⟩ := p
    rw [h1] at e
    simp only at e
    cases h2 : load ftrain with
    | error x => rw [h2] at e; cases e
    | ok rawTrain =>
      rw [h2] at e
      simp only [parse, subtract, Bool.false_eq_true, if_false, bind, Except.bind] at e
      cases h3 : applyAtomicEnergy rawTrain ae with
      | error x => rw [h3] at e; cases e
      | ok d1 =>
        rw [h3] at e
        simp only [pure, Except.pure] at e
        cases h4 : load ftest with
        | error x => rw [h4] at e; cases e
        | ok rawTest =>
          rw [h4] at e
          simp only at e
          cases h5 : applyAtomicEnergy rawTest ae with
          | error x => rw [h5] at e; cases e
          | ok d2 =>
            rw [h5] at e
            simp only [if_true, Except.ok.injEq, Prod.mk.injEq] at e
            obtain ⟨rfl, rfl⟩ := e
            exact ⟨ftrain, ftest, rawTrain, rawTest, rfl, h2, h4, h3, h5⟩

example : (fromFileList (fun _ : List ℕ => .ok exDFT) [1, 2, 3] [-1, 2] (1/3)).toOption.map
    (fun p => p.1.dft.map (·.energies)) = some (some [-3, -3, -3]) := by decide +kernel

end Verif.Dataset
