import Verif.Lemmas.MlpNlm
import Mathlib.Tactic.NormNum
import Mathlib.Data.Rat.Defs

/-!
# C30: conjugates of the channels `(n, l, m, type pair)`
-/

namespace Verif.Mlp
open Verif

variable (nType nFn maxl : ℕ) (cond : ℕ → ℕ → List ℕ)

/-- `b` is the channel of `a` with the opposite `m`. -/
def IsConj (a b : NlmAttr) : Prop :=
  b.n = a.n ∧ b.lm.l = a.lm.l ∧ b.lm.m = -a.lm.m ∧ b.tp = a.tp

/-! ## Global identifiers -/

/-- The table of conjugates sends the position of `(n, l, m, tp)` to the position of `(n, l, -m, tp)`,
for any table of type pairs. -/
theorem C30_conjugate (m : TpMaps) (g : ℕ) (a : NlmAttr)
    (h : (nlmGlobal m nFn maxl).attrs[g]? = some a) :
    ∃ (g' : ℕ) (b : NlmAttr), conjTable (nlmGlobal m nFn maxl).attrs g = (g' : ℤ) ∧
      (nlmGlobal m nFn maxl).attrs[g']? = some b ∧ IsConj a b := by
  obtain ⟨b, l, k, hpos, hb, h1, h2, -, -, -, -, hl1, hl2, -, -⟩ :=
    attrs_conj m nFn maxl a (List.mem_of_getElem? h)
  refine ⟨a.gConj.toNat, b, ?_, hb, h1, by rw [hl1, hl2]; simp, by rw [hl1, hl2]; simp, h2⟩
  have := conjTable_eq _ (nlm_nodup_gids m nFn maxl) a (List.mem_of_getElem? h)
  rw [nlm_gid m nFn maxl g a h] at this
  rw [this]; omega

/-- Taking the conjugate twice gives the channel back. -/
theorem C30_involution (m : TpMaps) (g : ℕ) (hg : g < (nlmGlobal m nFn maxl).attrs.length) :
    conjTable (nlmGlobal m nFn maxl).attrs
      (conjTable (nlmGlobal m nFn maxl).attrs g).toNat = (g : ℤ) := by
  have hnd := nlm_nodup_gids m nFn maxl
  have ha := List.getElem?_eq_getElem hg
  set a := (nlmGlobal m nFn maxl).attrs[g]
  obtain ⟨b, l, k, hpos, hb, -, -, -, -, -, -, -, -, hc, -⟩ :=
    attrs_conj m nFn maxl a (List.mem_of_getElem? ha)
  have h1 := conjTable_eq _ hnd a (List.mem_of_getElem? ha)
  rw [nlm_gid m nFn maxl g a ha] at h1 hc
  have h2 := conjTable_eq _ hnd b (List.mem_of_getElem? hb)
  rw [nlm_gid m nFn maxl _ b hb] at h2
  rw [h1, h2, hc]

/-! ## Identifiers of one type -/

theorem local_conj (t k : ℕ) (a : NlmAttr)
    (h : ((nlmMaps nType nFn maxl cond).loc.attrs t)[k]? = some a) :
    ∃ (b : NlmAttr) (l : ℕ) (m : ℤ),
      ((nlmMaps nType nFn maxl cond).loc.attrs t)[a.ilocConj]? = some b ∧
      b.n = a.n ∧ b.tp = a.tp ∧ b.nId = a.nId ∧ a.iloc = k ∧ l ≤ maxl ∧ -(l : ℤ) ≤ m ∧ m ≤ l ∧
      a.lm = lmAttr l m ∧ b.lm = lmAttr l (-m) ∧ b.ilocConj = k ∧ (m = 0 → a.ilocConj = k) := by
  unfold nlmMaps nlmConjIds at h ⊢
  simp only at h ⊢
  set M := setTypePairs nType cond with hM
  set P := (nlmGlobal M nFn maxl).attrs with hP
  have hnd : (P.map (·.gid)).Nodup := nlm_nodup_gids M nFn maxl
  have hI := nlmInv M P
  rw [List.getElem?_map] at h
  obtain ⟨a0, ha0, rfl⟩ := Option.map_eq_some_iff.1 h
  obtain ⟨g0, hg0, hbare, hrel⟩ := mem_nlm_gid hI (List.mem_of_getElem? ha0)
  obtain ⟨b, l, m, hpos, hb, hbn, hbt, hbi, hl, h1, h2, hlm, hlm', hbc, hz⟩ :=
    attrs_conj M nFn maxl g0 hg0
  have hbg : b.gid = g0.gConj.toNat := nlm_gid M nFn maxl _ b hb
  have hrelb : nrel M t b := by unfold nrel at hrel ⊢; rw [hbt]; exact hrel
  obtain ⟨b', hb', hbb⟩ := local_of_global hnd (List.mem_of_getElem? hb) hrelb
  have eC : a0.gConj = g0.gConj := by simpa [nbare] using (congrArg NlmAttr.gConj hbare).symm
  have eG : a0.gid = g0.gid := by simpa [nbare] using (congrArg NlmAttr.gid hbare).symm
  have hil : ilocZ (nlmLocal M P).iloc a0.gConj t = (nlmLocal M P).iloc b.gid t := by
    unfold ilocZ; rw [eC, if_pos hpos, hbg]
  refine ⟨{ b' with ilocConj := ilocZ (nlmLocal M P).iloc b'.gConj t }, l, m, ?_, ?_, ?_, ?_, ?_,
    hl, h1, h2, ?_, ?_, ?_, ?_⟩
  · rw [hil, List.getElem?_map, hb']; rfl
  · have e1 : b'.n = b.n := by simpa [nbare] using congrArg NlmAttr.n hbb
    have e2 : g0.n = a0.n := by simpa [nbare] using congrArg NlmAttr.n hbare
    simp only; rw [e1, hbn, e2]
  · have e1 : b'.tp = b.tp := by simpa [nbare] using congrArg NlmAttr.tp hbb
    have e2 : g0.tp = a0.tp := by simpa [nbare] using congrArg NlmAttr.tp hbare
    simp only; rw [e1, hbt, e2]
  · have e1 : b'.nId = b.nId := by simpa [nbare] using congrArg NlmAttr.nId hbb
    have e2 : g0.nId = a0.nId := by simpa [nbare] using congrArg NlmAttr.nId hbare
    simp only; rw [e1, hbi, e2]
  · exact hI.iloc t k a0 ha0
  · have e2 : g0.lm = a0.lm := by simpa [nbare] using congrArg NlmAttr.lm hbare
    simp only; rw [← e2, hlm]
  · have e1 : b'.lm = b.lm := by simpa [nbare] using congrArg NlmAttr.lm hbb
    simp only; rw [e1, hlm']
  · have e1 : b'.gConj = b.gConj := by simpa [nbare] using congrArg NlmAttr.gConj hbb
    simp only
    rw [e1, hbc, ← eG]
    unfold ilocZ
    rw [if_pos (by omega), Int.toNat_natCast, hI.table hnd t a0 (List.mem_of_getElem? ha0),
      hI.iloc t k a0 ha0]
  · intro h0
    simp only
    unfold ilocZ
    rw [eC, if_pos hpos, hz h0, ← eG, Int.toNat_natCast,
      hI.table hnd t a0 (List.mem_of_getElem? ha0), hI.iloc t k a0 ha0]

/-- For every type: the channel stored at the conjugate index is the channel with the opposite `m`,
and its own conjugate index leads back. -/
theorem C30_local (t k : ℕ) (a : NlmAttr)
    (h : ((nlmMaps nType nFn maxl cond).loc.attrs t)[k]? = some a) :
    a.iloc = k ∧ ∃ b, ((nlmMaps nType nFn maxl cond).loc.attrs t)[a.ilocConj]? = some b ∧
      IsConj a b ∧ b.ilocConj = k := by
  obtain ⟨b, l, m, hb, h1, h2, -, h3, -, -, -, h4, h5, h6, -⟩ := local_conj nType nFn maxl cond t k a h
  exact ⟨h3, b, hb, ⟨h1, by rw [h4, h5]; simp, by rw [h4, h5]; simp, h2⟩, h6⟩

/-! ## Which channels exist -/

theorem mem_nToTp (m : TpMaps) (n tp : ℕ) :
    tp ∈ nToTp m n ↔ ∃ ns, m.tpN[tp]? = some ns ∧ n ∈ ns := by
  unfold nToTp
  simp only [List.mem_flatMap, List.mem_filterMap]
  constructor
  · rintro ⟨⟨ns, k⟩, he, n', hn', h⟩
    split_ifs at h with hh
    cases h
    exact ⟨ns, List.mem_zipIdx_iff_getElem?.1 he, hh ▸ hn'⟩
  · rintro ⟨ns, h1, h2⟩
    exact ⟨(ns, tp), List.mem_zipIdx_iff_getElem?.2 h1, n, h2, by simp⟩

theorem nodup_nToTp (m : TpMaps) (hnd : ∀ ns ∈ m.tpN, ns.Nodup) (n : ℕ) : (nToTp m n).Nodup := by
  unfold nToTp
  rw [List.nodup_flatMap]
  constructor
  · rintro ⟨ns, k⟩ he
    have := hnd ns (List.mem_of_getElem? (List.mem_zipIdx_iff_getElem?.1 he))
    refine List.Nodup.filterMap ?_ this
    intro a a' b hb hb'
    split_ifs at hb hb' with h1 h2
    · rw [h1, h2]
    all_goals simp at hb hb'
  · have : m.tpN.zipIdx.Pairwise fun a b => a.2 ≠ b.2 := by
      have h := List.nodup_range' (s := 0) (n := m.tpN.length) (step := 1)
      rw [← List.zipIdx_map_snd 0 m.tpN] at h
      exact List.pairwise_map.1 h
    refine this.imp ?_
    intro a b hab
    rw [Function.onFun, List.disjoint_left]
    intro x hx hx'
    rw [List.mem_filterMap] at hx hx'
    obtain ⟨_, _, h1⟩ := hx
    obtain ⟨_, _, h2⟩ := hx'
    split_ifs at h1 h2
    · simp only [Option.some.injEq] at h1 h2; exact hab (h1.trans h2.symm)
    all_goals simp at h1 h2

theorem lmAttrs_nodup (maxl : ℕ) : ((lmAttrs maxl).map fun a => (a.l, a.m)).Nodup := by
  rw [List.nodup_iff_injective_getElem]
  intro i j hij
  have hi := i.2; have hj := j.2
  simp only [List.length_map] at hi hj
  simp only [List.getElem_map, Prod.mk.injEq] at hij
  obtain ⟨l, m, -, -, -, h1, e1⟩ := lmAttrs_of_get maxl i _ (List.getElem?_eq_getElem hi)
  obtain ⟨l', m', -, -, -, h2, e2⟩ := lmAttrs_of_get maxl j _ (List.getElem?_eq_getElem hj)
  rw [e1, e2] at hij
  simp only [lmAttr_l, lmAttr_m] at hij
  obtain ⟨rfl, rfl⟩ := hij
  apply Fin.ext
  omega

theorem nlmIter_nodup (m : TpMaps) (hnd : ∀ ns ∈ m.tpN, ns.Nodup) :
    ((nlmIter m nFn maxl).map fun c => (c.1, c.2.1, c.2.2.2)).Nodup := by
  unfold nlmIter
  simp only [List.map_flatMap, List.map_map]
  rw [List.nodup_flatMap]
  constructor
  · intro n _
    rw [List.nodup_flatMap]
    constructor
    · rintro ⟨a, i⟩ _
      exact (nodup_nToTp m hnd n).map (fun a b h => by simpa using h)
    · have : (lmAttrs maxl).zipIdx.Pairwise fun a b => a.2 ≠ b.2 := by
        have h := List.nodup_range' (s := 0) (n := (lmAttrs maxl).length) (step := 1)
        rw [← List.zipIdx_map_snd 0 (lmAttrs maxl)] at h
        exact List.pairwise_map.1 h
      refine this.imp ?_
      intro a b hab
      rw [Function.onFun, List.disjoint_left]
      intro x hx hx'
      rw [List.mem_map] at hx hx'
      obtain ⟨_, _, rfl⟩ := hx
      obtain ⟨_, _, h2⟩ := hx'
      simp only [Function.comp, Prod.mk.injEq] at h2
      exact hab h2.2.1.symm
  · refine List.Pairwise.imp_of_mem ?_ (List.nodup_range (n := nFn))
    intro a b _ _ hab
    rw [Function.onFun, List.disjoint_left]
    intro x hx hx'
    simp only [List.mem_flatMap, List.mem_map] at hx hx'
    obtain ⟨_, _, _, _, rfl⟩ := hx
    obtain ⟨_, _, _, _, h2⟩ := hx'
    simp only [Function.comp, Prod.mk.injEq] at h2
    exact hab h2.1.symm

theorem mem_nlmIter (m : TpMaps) (c : ℕ × ℕ × LmAttr × ℕ) :
    c ∈ nlmIter m nFn maxl ↔
      c.1 < nFn ∧ (lmAttrs maxl)[c.2.1]? = some c.2.2.1 ∧ c.2.2.2 ∈ nToTp m c.1 := by
  unfold nlmIter
  simp only [List.mem_flatMap, List.mem_range, List.mem_map]
  constructor
  · rintro ⟨n, hn, e, he, tp, htp, rfl⟩
    exact ⟨hn, List.mem_zipIdx_iff_getElem?.1 he, htp⟩
  · rintro ⟨h1, h2, h3⟩
    exact ⟨c.1, h1, (c.2.2.1, c.2.1), List.mem_zipIdx_iff_getElem?.2 h2, c.2.2.2, h3, rfl⟩

/-- The channel of an attribute: `n`, `l`, `m`, type pair. -/
def channel (a : NlmAttr) : ℕ × ℕ × ℤ × ℕ := (a.n, a.lm.l, a.lm.m, a.tp)

theorem mem_global (m : TpMaps) (x : ℕ × ℕ × ℤ × ℕ) :
    (∃ a ∈ (nlmGlobal m nFn maxl).attrs, channel a = x) ↔
      x.1 < nFn ∧ x.2.1 ≤ maxl ∧ -(x.2.1 : ℤ) ≤ x.2.2.1 ∧ x.2.2.1 ≤ x.2.1 ∧
        ∃ ns, m.tpN[x.2.2.2]? = some ns ∧ x.1 ∈ ns := by
  obtain ⟨hlen, hinv, -⟩ := nlmFold_inv m (nlmIter m nFn maxl)
  constructor
  · rintro ⟨a, ha, rfl⟩
    obtain ⟨g, hg⟩ := List.mem_iff_getElem?.1 ha
    obtain ⟨c, hc, hA⟩ := hinv g a hg
    obtain ⟨h1, h2, h3⟩ := (mem_nlmIter nFn maxl m c).1 (List.mem_of_getElem? hc)
    obtain ⟨l, k, hl, hk1, hk2, -, e⟩ := lmAttrs_of_get maxl _ _ h2
    unfold channel
    simp only [hA.n, hA.lm, hA.tp, e, lmAttr_l, lmAttr_m]
    exact ⟨h1, hl, hk1, hk2, (mem_nToTp m _ _).1 h3⟩
  · rintro ⟨h1, h2, h3, h4, h5⟩
    obtain ⟨n, l, k, tp⟩ := x
    simp only at h1 h2 h3 h4 h5
    have hm : (n, ((l : ℤ) * l + l + k).toNat, lmAttr l k, tp) ∈ nlmIter m nFn maxl :=
      (mem_nlmIter nFn maxl m _).2 ⟨h1, lmAttrs_get maxl l k h2 h3 h4, (mem_nToTp m _ _).2 h5⟩
    obtain ⟨g, hg⟩ := List.mem_iff_getElem?.1 hm
    have hlt : g < (nlmGlobal m nFn maxl).attrs.length := by
      rw [nlmGlobal_eq, hlen]; exact (List.getElem?_eq_some_iff.1 hg).1
    have hga := List.getElem?_eq_getElem hlt
    obtain ⟨c, hc, hA⟩ := hinv g _ hga
    rw [hg] at hc
    cases hc
    refine ⟨_, List.mem_of_getElem? hga, ?_⟩
    unfold channel
    rw [hA.n, hA.lm, hA.tp]
    simp

/-- The channels of a type are exactly `(n, l, m, pair)` with `l ≤ maxl`, `-l ≤ m ≤ l`, a pair that
contains the type and a radial function listed for the pair. -/
theorem C30_channels (t : ℕ) (x : ℕ × ℕ × ℤ × ℕ) :
    (∃ a ∈ (nlmMaps nType nFn maxl cond).loc.attrs t, channel a = x) ↔
      x.1 < nFn ∧ x.2.1 ≤ maxl ∧ -(x.2.1 : ℤ) ≤ x.2.2.1 ∧ x.2.2.1 ≤ x.2.1 ∧
        ∃ i j, (setTypePairs nType cond).tpTypes[x.2.2.2]? = some (i, j) ∧ x.1 ∈ cond i j ∧
          (i = t ∨ j = t) := by
  have key : (∃ a ∈ (nlmMaps nType nFn maxl cond).loc.attrs t, channel a = x) ↔
      ∃ a ∈ (nlmGlobal (setTypePairs nType cond) nFn maxl).attrs, channel a = x ∧
        nrel (setTypePairs nType cond) t a := by
    unfold nlmMaps nlmConjIds
    simp only
    set M := setTypePairs nType cond
    set P := (nlmGlobal M nFn maxl).attrs
    have hI := nlmInv M P
    constructor
    · rintro ⟨a, ha, rfl⟩
      rw [List.mem_map] at ha
      obtain ⟨a0, ha0, rfl⟩ := ha
      obtain ⟨b, hb, he, hr⟩ := mem_nlm_gid hI ha0
      refine ⟨b, hb, ?_, hr⟩
      have e1 := congrArg NlmAttr.n he
      have e2 := congrArg NlmAttr.lm he
      have e3 := congrArg NlmAttr.tp he
      simp only [nbare] at e1 e2 e3
      simp [channel, e1, e2, e3]
    · rintro ⟨b, hb, rfl, hr⟩
      obtain ⟨b', hb', he⟩ := local_of_global (nlm_nodup_gids M nFn maxl) hb hr
      refine ⟨_, List.mem_map.2 ⟨b', List.mem_of_getElem? hb', rfl⟩, ?_⟩
      have e1 := congrArg NlmAttr.n he
      have e2 := congrArg NlmAttr.lm he
      have e3 := congrArg NlmAttr.tp he
      simp only [nbare] at e1 e2 e3
      simp [channel, e1, e2, e3]
  rw [key]
  have hg := mem_global nFn maxl (setTypePairs nType cond) x
  have htp : ∀ (tp : ℕ) (ns : List ℕ), (setTypePairs nType cond).tpN[tp]? = some ns ↔
      ∃ i j : ℕ, (setTypePairs nType cond).tpTypes[tp]? = some (i, j) ∧ ns = cond i j := by
    intro tp ns
    rw [tpN_eq, tpTypes_eq, List.getElem?_map, Option.map_eq_some_iff]
    constructor
    · rintro ⟨⟨i, j⟩, h1, rfl⟩; exact ⟨i, j, h1, rfl⟩
    · rintro ⟨i, j, h1, rfl⟩; exact ⟨(i, j), h1, rfl⟩
  constructor
  · rintro ⟨a, ha, rfl, hr⟩
    obtain ⟨h1, h2, h3, h4, ns, h5, h6⟩ := hg.1 ⟨a, ha, rfl⟩
    obtain ⟨i, j, h7, rfl⟩ := (htp _ _).1 h5
    refine ⟨h1, h2, h3, h4, i, j, h7, h6, ?_⟩
    unfold nrel typesOf at hr
    rw [List.getD_eq_getElem?_getD] at hr
    rw [show (channel a).2.2.2 = a.tp from rfl] at h7
    rw [h7] at hr
    simpa using hr
  · rintro ⟨h1, h2, h3, h4, i, j, h7, h6, hij⟩
    obtain ⟨a, ha, rfl⟩ := hg.2 ⟨h1, h2, h3, h4, cond i j, (htp _ _).2 ⟨i, j, h7, rfl⟩, h6⟩
    refine ⟨a, ha, rfl, ?_⟩
    unfold nrel typesOf
    rw [show (channel a).2.2.2 = a.tp from rfl] at h7
    rw [List.getD_eq_getElem?_getD, h7]
    simpa using hij

theorem global_nodup (m : TpMaps) (hnd : ∀ ns ∈ m.tpN, ns.Nodup) :
    ((nlmGlobal m nFn maxl).attrs.map channel).Nodup := by
  obtain ⟨hlen, hinv, -⟩ := nlmFold_inv m (nlmIter m nFn maxl)
  rw [List.nodup_iff_injective_getElem]
  intro i j hij
  obtain ⟨i, hi⟩ := i
  obtain ⟨j, hj⟩ := j
  simp only [List.length_map] at hi hj
  simp only [List.getElem_map] at hij
  obtain ⟨a, ha⟩ : ∃ a, (nlmGlobal m nFn maxl).attrs[i] = a := ⟨_, rfl⟩
  obtain ⟨a', ha'⟩ : ∃ a, (nlmGlobal m nFn maxl).attrs[j] = a := ⟨_, rfl⟩
  rw [ha, ha'] at hij
  obtain ⟨c, hc, hA⟩ := hinv i a (by rw [← ha]; exact List.getElem?_eq_getElem hi)
  obtain ⟨c', hc', hA'⟩ := hinv j a' (by rw [← ha']; exact List.getElem?_eq_getElem hj)
  obtain ⟨-, h2, -⟩ := (mem_nlmIter nFn maxl m c).1 (List.mem_of_getElem? hc)
  obtain ⟨-, h2', -⟩ := (mem_nlmIter nFn maxl m c').1 (List.mem_of_getElem? hc')
  obtain ⟨l, k, -, -, -, he, e⟩ := lmAttrs_of_get maxl _ _ h2
  obtain ⟨l', k', -, -, -, he', e'⟩ := lmAttrs_of_get maxl _ _ h2'
  unfold channel at hij
  rw [hA.n, hA.lm, hA.tp, hA'.n, hA'.lm, hA'.tp, e, e'] at hij
  simp only [lmAttr_l, lmAttr_m, Prod.mk.injEq] at hij
  obtain ⟨e1, rfl, rfl, e2⟩ := hij
  have hk : c.2.1 = c'.2.1 := by omega
  have h3 : ((nlmIter m nFn maxl).map fun c => (c.1, c.2.1, c.2.2.2))[(i : ℕ)]? =
      ((nlmIter m nFn maxl).map fun c => (c.1, c.2.1, c.2.2.2))[(j : ℕ)]? := by
    rw [List.getElem?_map, List.getElem?_map, hc, hc']
    simp [e1, e2, hk]
  have hi2 : (i : ℕ) < ((nlmIter m nFn maxl).map fun c => (c.1, c.2.1, c.2.2.2)).length := by
    rw [List.length_map]; exact (List.getElem?_eq_some_iff.1 hc).1
  exact Fin.ext ((List.getElem?_inj hi2 (nlmIter_nodup nFn maxl m hnd)).1 h3)

/-- No channel of a type is listed twice when the lists of radial functions have no repetition. -/
theorem C30_channels_once (hcond : ∀ i j, (cond i j).Nodup) (t : ℕ) :
    (((nlmMaps nType nFn maxl cond).loc.attrs t).map channel).Nodup := by
  unfold nlmMaps nlmConjIds
  simp only
  have hns : ∀ ns ∈ (setTypePairs nType cond).tpN, ns.Nodup := by
    intro ns h
    rw [tpN_eq, List.mem_map] at h
    obtain ⟨e, -, rfl⟩ := h
    exact hcond _ _
  set M := setTypePairs nType cond
  set P := (nlmGlobal M nFn maxl).attrs with hP
  have hI := nlmInv M P
  have h1 : (((nlmLocal M P).attrs t).map
      fun a => ({ a with ilocConj := ilocZ (nlmLocal M P).iloc a.gConj t } : NlmAttr)).map channel =
      (P.filter (nrel M t)).map channel := by
    have hc : (channel ∘ fun a => ({ a with ilocConj := ilocZ (nlmLocal M P).iloc a.gConj t } : NlmAttr))
        = channel ∘ nbare := rfl
    rw [List.map_map, hc, ← List.map_map, hI.bare t, List.map_map]
    rfl
  rw [h1]
  exact (global_nodup nFn maxl M hns).sublist (List.Sublist.map _ List.filter_sublist)

/-- Position of `|m|` in the half list of spherical harmonics `(0,0), (1,-1), (1,0), (2,-2), ...`. -/
theorem C30_ylm_key (l : ℕ) (m : ℤ) :
    (lmAttr l m).ylmKey = ((l * (l + 1) / 2 : ℕ) : ℤ) + l - |m| := by
  have h : (l + 3) * l / 2 = l * (l + 1) / 2 + l := by
    have : (l + 3) * l = l * (l + 1) + l * 2 := by ring
    rw [this, Nat.add_mul_div_right _ _ (by norm_num)]
  unfold lmAttr
  simp only
  split_ifs with h1
  all_goals simp only [h]; push_cast
  · rw [abs_of_nonpos (by omega)]; ring
  all_goals first
    | (rw [abs_of_nonpos (by omega)]; ring)
    | (rw [abs_of_pos (by omega)])

/-! ## Values -/

theorem fold_put2 {α V : Type} (l : List α) (p q : α → ℕ) (x y : α → V) (v : ℕ → V) (k : ℕ) (z : V)
    (hp : ∀ e ∈ l, p e = k → q e ≠ k → x e = z) (hq : ∀ e ∈ l, q e = k → y e = z)
    (hex : (∃ e ∈ l, p e = k ∨ q e = k) ∨ v k = z) :
    (l.foldl (fun v e => put (put v (p e) (x e)) (q e) (y e)) v) k = z := by
  induction l generalizing v with
  | nil =>
    rcases hex with ⟨e, he, -⟩ | h
    · simp at he
    · exact h
  | cons a l ih =>
    rw [List.foldl_cons]
    apply ih
    · intro e he; exact hp e (by simp [he])
    · intro e he; exact hq e (by simp [he])
    · by_cases h1 : q a = k
      · right; rw [← h1, put_same]; exact hq a (by simp) h1
      · by_cases h2 : p a = k
        · right
          rw [put_ne _ _ (Ne.symm h1), ← h2, put_same]
          exact hp a (by simp) h2 h1
        · rcases hex with ⟨e, he, hh⟩ | h
          · simp only [List.mem_cons] at he
            rcases he with rfl | he
            · exfalso; rcases hh with hh | hh <;> contradiction
            · left; exact ⟨e, he, hh⟩
          · right
            rw [put_ne _ _ (Ne.symm h1), put_ne _ _ (Ne.symm h2)]
            exact h

theorem loc_noconj (t : ℕ) : (nlmMaps nType nFn maxl cond).loc.noconj t =
    ((nlmMaps nType nFn maxl cond).loc.attrs t).filter (fun a => !a.lm.conj) := by
  unfold nlmMaps nlmConjIds
  simp only
  rw [(nlmInv _ _).noconj t, List.filter_map]
  rfl

theorem cc_cast {K : Type} [Field K] (l : ℕ) (m : ℤ) :
    ((lmAttr l m).cc : K) = (-1 : K) ^ m.natAbs := by
  rw [lmAttr_cc]
  rcases Int.even_or_odd m with h | h
  · rw [if_pos (by rwa [Int.even_iff] at h), (Int.natAbs_even.2 h).neg_one_pow]; simp
  · rw [if_neg (by rw [Int.odd_iff] at h; omega), (Int.natAbs_odd.2 h).neg_one_pow]; simp

/-- The array rebuilt from its half with `m ≤ 0`: channel `(n, l, m, pair)` holds the given value for
`m < 0` and `(-1)^m` times the conjugate of the value of `(n, l, -m, pair)` for `m ≥ 0`. -/
theorem C30_reconstruct {K : Type} [Field K] (f : ℕ × ℕ × ℤ × ℕ → Cx K) (t k : ℕ) (a : NlmAttr)
    (h : ((nlmMaps nType nFn maxl cond).loc.attrs t)[k]? = some a) :
    anlmConjugate ((nlmMaps nType nFn maxl cond).loc.noconj t)
      (fun idx => (((nlmMaps nType nFn maxl cond).loc.noconj t)[idx]?.map
        fun b => f (channel b)).getD 0) k =
      if a.lm.m < 0 then f (a.n, a.lm.l, a.lm.m, a.tp)
      else Cx.smul ((-1) ^ a.lm.m.natAbs) (Cx.conj (f (a.n, a.lm.l, -a.lm.m, a.tp))) := by
  obtain ⟨b, l, m, hb, hbn, hbt, -, hai, hl, hm1, hm2, hlm, hlm', hbc, hz⟩ :=
    local_conj nType nFn maxl cond t k a h
  have hval : ∀ e ∈ ((nlmMaps nType nFn maxl cond).loc.noconj t).zipIdx,
      ((((nlmMaps nType nFn maxl cond).loc.noconj t)[e.2]?.map
        fun b => f (channel b)).getD 0) = f (channel e.1) := by
    intro e he
    rw [List.mem_zipIdx_iff_getElem?.1 he]; rfl
  have hmem : ∀ e ∈ ((nlmMaps nType nFn maxl cond).loc.noconj t).zipIdx,
      ∃ k' : ℕ, ((nlmMaps nType nFn maxl cond).loc.attrs t)[k']? = some e.1 ∧ e.1.lm.conj = false := by
    intro e he
    have := List.mem_of_getElem? (List.mem_zipIdx_iff_getElem?.1 he)
    rw [loc_noconj, List.mem_filter] at this
    obtain ⟨k', hk'⟩ := List.mem_iff_getElem?.1 this.1
    exact ⟨k', hk', by simpa using this.2⟩
  unfold anlmConjugate
  simp only
  apply fold_put2
  · intro e he hp hq
    obtain ⟨k', hk', hc⟩ := hmem e he
    have hk2 : k' = k := by
      rw [← hp]; exact (local_conj nType nFn maxl cond t k' _ hk').choose_spec.choose_spec.choose_spec.2.2.2.2.1.symm
    subst hk2
    rw [h] at hk'
    cases hk'
    have hm0 : m ≤ 0 := by
      rw [hlm, lmAttr_conj] at hc; simpa using hc
    have hmne : m ≠ 0 := by
      intro h0
      subst h0
      apply hq
      exact hz rfl
    rw [if_pos (by rw [hlm]; simp; omega)]
    show (⟨_, _⟩ : Cx K) = _
    rw [hval e he]
    rfl
  · intro e he hq
    obtain ⟨k', hk', hc⟩ := hmem e he
    obtain ⟨c, l', m', hcg, hcn, hct, -, hei, -, -, -, hel, hcl, hcc, -⟩ :=
      local_conj nType nFn maxl cond t k' _ hk'
    rw [hq, h] at hcg
    cases hcg
    have e1 : l' = l ∧ -m' = m := by
      rw [hlm] at hcl
      have e1 := congrArg LmAttr.l hcl
      have e2 := congrArg LmAttr.m hcl
      simp at e1 e2
      omega
    obtain ⟨rfl, rfl⟩ := e1
    have hm0 : m' ≤ 0 := by
      rw [hel, lmAttr_conj] at hc; simpa using hc
    rw [if_neg (by rw [hlm]; simp; omega), hval e he]
    have hch : channel e.1 = (a.n, a.lm.l, -a.lm.m, a.tp) := by
      unfold channel; rw [hel, hlm, hcn, hct]; simp
    rw [hch, hel, cc_cast, hlm, lmAttr_m, Int.natAbs_neg]
    apply Cx.ext <;> simp
  · left
    by_cases hm0 : m ≤ 0
    · have : a ∈ (nlmMaps nType nFn maxl cond).loc.noconj t := by
        rw [loc_noconj, List.mem_filter]
        exact ⟨List.mem_of_getElem? h, by rw [hlm, lmAttr_conj]; simpa using hm0⟩
      obtain ⟨i, hi⟩ := List.mem_iff_getElem?.1 this
      exact ⟨(a, i), List.mem_zipIdx_iff_getElem?.2 hi, Or.inl hai⟩
    · have : b ∈ (nlmMaps nType nFn maxl cond).loc.noconj t := by
        rw [loc_noconj, List.mem_filter]
        refine ⟨List.mem_of_getElem? hb, ?_⟩
        rw [hlm', lmAttr_conj]; simp; omega
      obtain ⟨i, hi⟩ := List.mem_iff_getElem?.1 this
      exact ⟨(b, i), List.mem_zipIdx_iff_getElem?.2 hi, Or.inr hbc⟩

/-! ## A case with two types -/

/-- Two radial functions for equal types, one for different types. -/
def condEx : ℕ → ℕ → List ℕ := fun i j => if i = j then [0, 1] else [1]

/- Channel 6 of type 1 is `(n, l, m) = (1, 1, -1)` of the pair `(0, 1)`; its conjugate is stored. -/
example : ((nlmMaps 2 2 1 condEx).loc.attrs 1)[6]?.map
      (fun a => (channel a, a.iloc, a.ilocConj, a.ilocNoconj)) = some ((1, 1, -1, 1), 6, 10, 5) ∧
    ((nlmMaps 2 2 1 condEx).loc.attrs 1)[10]?.map (fun a => (channel a, a.ilocConj)) =
      some ((1, 1, 1, 1), 6) ∧
    ((nlmMaps 2 2 1 condEx).loc.attrs 1).length = 12 := by decide +kernel

example : ∀ i j, (condEx i j).Nodup := by
  intro i j; unfold condEx; split_ifs <;> decide

end Verif.Mlp
