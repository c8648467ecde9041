import Verif.Model.MlpNlm
import Verif.Lemmas.MlpMap
import Mathlib.Data.List.Induction
import Mathlib.Data.List.Range
import Mathlib.Tactic.Ring
import Mathlib.Tactic.Linarith
import Mathlib.Tactic.Positivity

namespace Verif.Mlp
open Verif

/-! ## Positions in a concatenation -/

theorem flatMap_get {α β : Type} (f : α → List β) (l : List α) (i k : ℕ) (a : α) (x : β)
    (hi : l[i]? = some a) (hk : (f a)[k]? = some x) :
    (l.flatMap f)[((l.take i).flatMap f).length + k]? = some x := by
  induction l generalizing i with
  | nil => simp at hi
  | cons b l ih =>
    cases i with
    | zero =>
      simp only [List.getElem?_cons_zero, Option.some.injEq] at hi
      subst hi
      have hlt : k < (f b).length := (List.getElem?_eq_some_iff.1 hk).1
      simp [List.getElem?_append_left hlt, hk]
    | succ i =>
      rw [List.getElem?_cons_succ] at hi
      have h := ih i hi
      rw [List.take_succ_cons, List.flatMap_cons, List.flatMap_cons, List.length_append,
        List.getElem?_append_right (by omega)]
      rw [← h]
      congr 1
      omega

theorem flatMap_decomp {α β : Type} (f : α → List β) (l : List α) (g : ℕ) (x : β)
    (h : (l.flatMap f)[g]? = some x) :
    ∃ (i : ℕ) (a : α) (k : ℕ), l[i]? = some a ∧ (f a)[k]? = some x ∧
      g = ((l.take i).flatMap f).length + k := by
  induction l generalizing g with
  | nil => simp at h
  | cons b l ih =>
    rw [List.flatMap_cons] at h
    by_cases hg : g < (f b).length
    · rw [List.getElem?_append_left hg] at h
      exact ⟨0, b, g, rfl, h, by simp⟩
    · rw [List.getElem?_append_right (by omega)] at h
      obtain ⟨i, a, k, h1, h2, h3⟩ := ih _ h
      refine ⟨i + 1, a, k, by simpa using h1, h2, ?_⟩
      rw [List.take_succ_cons, List.flatMap_cons, List.length_append]
      omega

theorem flatMap_length_const {α β : Type} (f : α → List β) (T : ℕ) (l : List α)
    (h : ∀ a, (f a).length = T) : (l.flatMap f).length = l.length * T := by
  induction l with
  | nil => simp
  | cons a l ih => rw [List.flatMap_cons, List.length_append, ih, h, List.length_cons]; ring

/-! ## `(l, m)` -/

@[simp] theorem lmAttr_l (l : ℕ) (m : ℤ) : (lmAttr l m).l = l := by
  unfold lmAttr; simp only; split_ifs <;> rfl
@[simp] theorem lmAttr_m (l : ℕ) (m : ℤ) : (lmAttr l m).m = m := by
  unfold lmAttr; simp only; split_ifs <;> rfl
theorem lmAttr_conj (l : ℕ) (m : ℤ) : (lmAttr l m).conj = decide (0 < m) := by
  unfold lmAttr; simp only; split_ifs with h <;> simp <;> omega
theorem lmAttr_cc (l : ℕ) (m : ℤ) : (lmAttr l m).cc = if m % 2 = 0 then 1 else -1 := by
  unfold lmAttr; simp only; split_ifs <;> rfl
theorem lmAttr_signJ (l : ℕ) (m : ℤ) : (lmAttr l m).signJ = if l % 2 = 0 then 1 else -1 := by
  unfold lmAttr; simp only; split_ifs <;> rfl

theorem lmBlock_length (l : ℕ) :
    ((List.range (2 * l + 1)).map fun (k : ℕ) => lmAttr l ((k : ℤ) - (l : ℤ))).length = 2 * l + 1 := by
  simp

theorem lm_offset (l : ℕ) : ((List.range l).flatMap fun l =>
    (List.range (2 * l + 1)).map fun (k : ℕ) => lmAttr l ((k : ℤ) - (l : ℤ))).length = l * l := by
  induction l with
  | zero => rfl
  | succ l ih =>
    rw [List.range_succ, List.flatMap_append, List.length_append, ih]
    simp
    ring

/-- The list of `(l, m)`: position `l² + l + m`. -/
theorem lmAttrs_get (maxl l : ℕ) (m : ℤ) (hl : l ≤ maxl) (h1 : -(l : ℤ) ≤ m) (h2 : m ≤ l) :
    (lmAttrs maxl)[((l : ℤ) * l + l + m).toNat]? = some (lmAttr l m) := by
  have h := flatMap_get
    (fun l => (List.range (2 * l + 1)).map fun (k : ℕ) => lmAttr l ((k : ℤ) - (l : ℤ)))
    (List.range (maxl + 1)) l ((m + l).toNat) l (lmAttr l m)
    (by rw [List.getElem?_range (by omega)])
    (by
      rw [List.getElem?_map, List.getElem?_range (by omega)]
      simp only [Option.map_some, Option.some.injEq]
      congr 1
      omega)
  rw [List.take_range, Nat.min_eq_left (by omega), lm_offset] at h
  rw [← h]
  unfold lmAttrs
  congr 1
  have : ((l : ℤ) * l) = ((l * l : ℕ) : ℤ) := by push_cast; ring
  omega

theorem lmAttrs_of_get (maxl i : ℕ) (a : LmAttr) (h : (lmAttrs maxl)[i]? = some a) :
    ∃ (l : ℕ) (m : ℤ), l ≤ maxl ∧ -(l : ℤ) ≤ m ∧ m ≤ l ∧ (i : ℤ) = (l : ℤ) * l + l + m ∧
      a = lmAttr l m := by
  obtain ⟨l, l', k, h1, h2, h3⟩ := flatMap_decomp _ _ _ _ h
  obtain ⟨hl, he⟩ := List.getElem?_eq_some_iff.1 h1
  simp only [List.length_range] at hl
  simp only [List.getElem_range] at he
  subst he
  rw [List.getElem?_map] at h2
  obtain ⟨k', hk', he⟩ := Option.map_eq_some_iff.1 h2
  obtain ⟨hkl, hke⟩ := List.getElem?_eq_some_iff.1 hk'
  simp only [List.length_range] at hkl
  simp only [List.getElem_range] at hke
  subst hke
  rw [List.take_range, Nat.min_eq_left (by omega), lm_offset] at h3
  refine ⟨l, (k : ℤ) - l, by omega, by omega, by omega, ?_, he.symm⟩
  rw [h3]; push_cast; ring

/-! ## Iterations -/

theorem zipIdx_take {α : Type} (l : List α) (i : ℕ) : (l.zipIdx.take i).length = min i l.length := by
  simp

/-- Position of an iteration and of the iteration with `-m`. -/
theorem nlmIter_conj (m : TpMaps) (nFn maxl g : ℕ) (c : ℕ × ℕ × LmAttr × ℕ)
    (h : (nlmIter m nFn maxl)[g]? = some c) :
    ∃ (l : ℕ) (k : ℤ), l ≤ maxl ∧ -(l : ℤ) ≤ k ∧ k ≤ l ∧ c.1 < nFn ∧ c.2.2.1 = lmAttr l k ∧
      (c.2.1 : ℤ) = (l : ℤ) * l + l + k ∧ c.2.2.2 ∈ nToTp m c.1 ∧
      0 ≤ (g : ℤ) - 2 * k * ((nToTp m c.1).length : ℤ) ∧
      (nlmIter m nFn maxl)[((g : ℤ) - 2 * k * ((nToTp m c.1).length : ℤ)).toNat]? =
        some (c.1, ((l : ℤ) * l + l - k).toNat, lmAttr l (-k), c.2.2.2) := by
  unfold nlmIter at h ⊢
  obtain ⟨n, n', k1, hn, hk1, hg⟩ := flatMap_decomp _ _ _ _ h
  obtain ⟨hnl, he⟩ := List.getElem?_eq_some_iff.1 hn
  simp only [List.length_range] at hnl
  simp only [List.getElem_range] at he
  subst he
  obtain ⟨i, e, k2, hi, hk2, hk1e⟩ := flatMap_decomp _ _ _ _ hk1
  rw [List.getElem?_zipIdx] at hi
  obtain ⟨a, ha, rfl⟩ := Option.map_eq_some_iff.1 hi
  simp only [Nat.zero_add] at hk2
  rw [List.getElem?_map] at hk2
  obtain ⟨tp, htp, rfl⟩ := Option.map_eq_some_iff.1 hk2
  obtain ⟨l, k, hl, hkl, hku, hil, rfl⟩ := lmAttrs_of_get maxl i a ha
  have hil' : i < (lmAttrs maxl).length := (List.getElem?_eq_some_iff.1 ha).1
  have hlen : ∀ e : LmAttr × ℕ, ((nToTp m n).map fun tp => (n, e.2, e.1, tp)).length =
      (nToTp m n).length := by intro e; simp
  rw [flatMap_length_const _ _ _ hlen, zipIdx_take, Nat.min_eq_left (by omega)] at hk1e
  have hconj := lmAttrs_get maxl l (-k) hl (by omega) (by omega)
  have hi' : (((l : ℤ) * l + l + -k).toNat : ℤ) = (l : ℤ) * l + l - k := by
    have h0 : 0 ≤ (l : ℤ) * l := by positivity
    omega
  set i' := ((l : ℤ) * l + l + -k).toNat with hi'def
  have hil2 : i' < (lmAttrs maxl).length := (List.getElem?_eq_some_iff.1 hconj).1
  have h1 := flatMap_get (fun e : LmAttr × ℕ => (nToTp m n).map fun tp => (n, e.2, e.1, tp))
    (lmAttrs maxl).zipIdx i' k2 (lmAttr l (-k), i') (n, i', lmAttr l (-k), tp)
    (by rw [List.getElem?_zipIdx, hconj]; simp)
    (by rw [List.getElem?_map, htp]; rfl)
  rw [flatMap_length_const _ _ _ hlen, zipIdx_take, Nat.min_eq_left (by omega)] at h1
  have h2 := flatMap_get (fun n => (lmAttrs maxl).zipIdx.flatMap
    fun e => (nToTp m n).map fun tp => (n, e.2, e.1, tp)) (List.range nFn) n
    (i' * (nToTp m n).length + k2) n _ hn h1
  have hgz : (g : ℤ) - 2 * k * ((nToTp m n).length : ℤ) =
      ((((List.range nFn).take n).flatMap fun n => (lmAttrs maxl).zipIdx.flatMap
        fun e => (nToTp m n).map fun tp => (n, e.2, e.1, tp)).length : ℤ) +
        ((i' : ℤ) * ((nToTp m n).length : ℤ) + (k2 : ℤ)) := by
    rw [hg, hk1e]; push_cast
    rw [hi', hil]; ring
  refine ⟨l, k, hl, hkl, hku, hnl, rfl, hil, List.mem_of_getElem? htp, ?_, ?_⟩
  · simp only; rw [hgz]; positivity
  · simp only
    have e1 : ((l : ℤ) * l + l - k).toNat = i' := by omega
    rw [e1, hgz]
    rw [← h2]
    congr 1

/-! ## Global attributes -/

/-- The state after the iterations `P`. -/
def nlmFold (m : TpMaps) (P : List (ℕ × ℕ × LmAttr × ℕ)) : NlmGlobal :=
  P.foldl (nlmStep m) ⟨[], [], fun _ _ _ => 0⟩

theorem nlmFold_snoc (m : TpMaps) (P : List (ℕ × ℕ × LmAttr × ℕ)) (c : ℕ × ℕ × LmAttr × ℕ) :
    nlmFold m (P ++ [c]) = nlmStep m (nlmFold m P) c := by
  simp [nlmFold, List.foldl_append]

/-- What an attribute at position `g` records of the iteration. -/
structure AttrOf (m : TpMaps) (g : ℕ) (c : ℕ × ℕ × LmAttr × ℕ) (a : NlmAttr) : Prop where
  n : a.n = c.1
  nId : a.nId = nIdTable (m.tpN.getD c.2.2.2 []) c.1
  lm : a.lm = c.2.2.1
  tp : a.tp = c.2.2.2
  gid : a.gid = g
  gConj : a.gConj = (g : ℤ) - 2 * c.2.2.1.m * ((nToTp m c.1).length : ℤ)
  ilocs : a.iloc = 0 ∧ a.ilocNoconj = 0 ∧ a.jlocNoconj = 0 ∧ a.ilocConj = 0

theorem nlmFold_inv (m : TpMaps) (P : List (ℕ × ℕ × LmAttr × ℕ)) :
    (nlmFold m P).attrs.length = P.length ∧
    (∀ (g : ℕ) (a : NlmAttr), (nlmFold m P).attrs[g]? = some a →
      ∃ c, P[g]? = some c ∧ AttrOf m g c a) ∧
    (nlmFold m P).noconj = (nlmFold m P).attrs.filter (fun a => !a.lm.conj) := by
  induction P using List.reverseRecOn with
  | nil => exact ⟨rfl, by intro g a h; simp [nlmFold] at h, rfl⟩
  | append_singleton P c ih =>
    obtain ⟨h1, h2, h3⟩ := ih
    rw [nlmFold_snoc]
    set s := nlmFold m P with hs
    refine ⟨by simp [nlmStep, h1], ?_, ?_⟩
    · intro g a hga
      unfold nlmStep at hga
      simp only at hga
      by_cases hg : g < s.attrs.length
      · rw [List.getElem?_append_left hg] at hga
        obtain ⟨c', hc', ha⟩ := h2 g a hga
        exact ⟨c', by rw [List.getElem?_append_left (by omega)]; exact hc', ha⟩
      · rw [List.getElem?_append_right (by omega), List.getElem?_singleton] at hga
        split_ifs at hga with h0
        cases hga
        have hgl : g = s.attrs.length := by omega
        subst hgl
        refine ⟨c, by rw [h1]; simp, rfl, rfl, rfl, rfl, rfl, rfl, rfl, rfl, rfl, rfl⟩
    · unfold nlmStep
      simp only
      rw [List.filter_append, ← h3]
      by_cases hc : c.2.2.1.conj = false
      · rw [if_pos hc]; simp [hc]
      · rw [if_neg hc]; simp [hc]

theorem put3 (v : ℕ → ℕ → ℕ → ℕ) (a b c x a' b' c' : ℕ) :
    put v a (put (v a) b (put (v a b) c x)) a' b' c' =
      if a' = a ∧ b' = b ∧ c' = c then x else v a' b' c' := by
  unfold put
  by_cases h1 : a' = a <;> by_cases h2 : b' = b <;> by_cases h3 : c' = c <;> simp_all

theorem nlmFold_toGlobal (m : TpMaps) (P : List (ℕ × ℕ × LmAttr × ℕ))
    (hnd : (P.map fun c => (c.1, c.2.1, c.2.2.2)).Nodup) (g : ℕ) (c : ℕ × ℕ × LmAttr × ℕ)
    (h : P[g]? = some c) : (nlmFold m P).toGlobal c.1 c.2.1 c.2.2.2 = g := by
  induction P using List.reverseRecOn with
  | nil => simp at h
  | append_singleton P d ih =>
    rw [nlmFold_snoc]
    rw [List.map_append, List.nodup_append] at hnd
    unfold nlmStep
    simp only
    rw [put3]
    by_cases hg : g < P.length
    · rw [List.getElem?_append_left hg] at h
      have hne := hnd.2.2 (c.1, c.2.1, c.2.2.2)
        (List.mem_map.2 ⟨c, List.mem_of_getElem? h, rfl⟩) (d.1, d.2.1, d.2.2.2) (by simp)
      rw [if_neg (fun hh => hne (by rw [hh.1, hh.2.1, hh.2.2]))]
      exact ih hnd.1 h
    · rw [List.getElem?_append_right (by omega), List.getElem?_singleton] at h
      split_ifs at h with h0
      cases h
      rw [if_pos ⟨rfl, rfl, rfl⟩, (nlmFold_inv m P).1]
      omega

theorem nlmGlobal_eq (m : TpMaps) (nFn maxl : ℕ) :
    nlmGlobal m nFn maxl = nlmFold m (nlmIter m nFn maxl) := rfl

/-- The attribute of the opposite `m`. -/
theorem attrs_conj (m : TpMaps) (nFn maxl : ℕ) (a : NlmAttr)
    (h : a ∈ (nlmGlobal m nFn maxl).attrs) :
    ∃ (b : NlmAttr) (l : ℕ) (k : ℤ), 0 ≤ a.gConj ∧
      (nlmGlobal m nFn maxl).attrs[a.gConj.toNat]? = some b ∧ b.n = a.n ∧ b.tp = a.tp ∧
      b.nId = a.nId ∧ l ≤ maxl ∧ -(l : ℤ) ≤ k ∧ k ≤ l ∧
      a.lm = lmAttr l k ∧ b.lm = lmAttr l (-k) ∧ b.gConj = a.gid ∧
      (k = 0 → a.gConj = (a.gid : ℤ)) := by
  obtain ⟨g, hg⟩ := List.mem_iff_getElem?.1 h
  rw [nlmGlobal_eq] at hg ⊢
  obtain ⟨hlen, hinv, -⟩ := nlmFold_inv m (nlmIter m nFn maxl)
  obtain ⟨c, hc, ha⟩ := hinv g a hg
  obtain ⟨l, k, hl, h1, h2, hn, hlm, hi, htp, hpos, hget⟩ := nlmIter_conj m nFn maxl g c hc
  have hgc : a.gConj = (g : ℤ) - 2 * k * ((nToTp m c.1).length : ℤ) := by
    rw [ha.gConj, hlm]; simp
  rw [← hgc] at hpos hget
  have hlt : a.gConj.toNat < (nlmFold m (nlmIter m nFn maxl)).attrs.length := by
    rw [hlen]; exact (List.getElem?_eq_some_iff.1 hget).1
  obtain ⟨c', hc', hb⟩ := hinv a.gConj.toNat _ (List.getElem?_eq_getElem hlt)
  rw [hget] at hc'
  cases hc'
  refine ⟨_, l, k, hpos, List.getElem?_eq_getElem hlt, ?_, ?_, ?_, hl, h1, h2, ?_, ?_, ?_, ?_⟩
  · rw [hb.n, ha.n]
  · rw [hb.tp, ha.tp]
  · rw [hb.nId, ha.nId]
  · rw [ha.lm, hlm]
  · rw [hb.lm]
  · rw [hb.gConj, ha.gid]
    simp only [lmAttr_m]
    have : (a.gConj.toNat : ℤ) = a.gConj := by omega
    rw [this, hgc]; ring
  · intro h0; rw [hgc, ha.gid, h0]; ring

theorem nlm_gid (m : TpMaps) (nFn maxl g : ℕ) (a : NlmAttr)
    (h : (nlmGlobal m nFn maxl).attrs[g]? = some a) : a.gid = g := by
  obtain ⟨c, -, ha⟩ := (nlmFold_inv m (nlmIter m nFn maxl)).2.1 g a h
  exact ha.gid

theorem nlm_nodup_gids (m : TpMaps) (nFn maxl : ℕ) :
    ((nlmGlobal m nFn maxl).attrs.map (·.gid)).Nodup := by
  have : (nlmGlobal m nFn maxl).attrs.map (·.gid) =
      List.range (nlmGlobal m nFn maxl).attrs.length := by
    apply List.ext_getElem (by simp)
    intro i h1 h2
    simp only [List.length_map] at h1
    rw [List.getElem_map, List.getElem_range]
    exact nlm_gid m nFn maxl i _ (List.getElem?_eq_getElem h1)
  rw [this]
  exact List.nodup_range

theorem conjTable_eq (attrs : List NlmAttr) (hnd : (attrs.map (·.gid)).Nodup) (a : NlmAttr)
    (h : a ∈ attrs) : conjTable attrs a.gid = a.gConj := by
  unfold conjTable
  induction attrs using List.reverseRecOn with
  | nil => simp at h
  | append_singleton P b ih =>
    rw [List.foldl_append, List.foldl_cons, List.foldl_nil]
    rw [List.map_append, List.nodup_append] at hnd
    rw [List.mem_append] at h
    rcases h with h | h
    · have := hnd.2.2 a.gid (List.mem_map.2 ⟨a, h, rfl⟩) b.gid (by simp)
      rw [put_ne _ _ this]
      exact ih hnd.1 h
    · simp only [List.mem_singleton] at h
      subst h
      rw [put_same]

/-! ## Local attributes -/

/-- The state after the attributes `P`. -/
abbrev nlmLoc (m : TpMaps) (P : List NlmAttr) : NlmLocal := nlmLocal m P

theorem nlmLoc_snoc (m : TpMaps) (P : List NlmAttr) (a : NlmAttr) :
    nlmLocal m (P ++ [a]) = nlmLocalStep m (nlmLocal m P) a := by
  simp [nlmLocal, List.foldl_append]

/-- Whether `t` is one of the two types of the channel. -/
def nrel (m : TpMaps) (t : ℕ) (a : NlmAttr) : Bool :=
  (typesOf m a.tp).1 = t ∨ (typesOf m a.tp).2 = t

/-- Attribute without local identifiers. -/
def nbare (a : NlmAttr) : NlmAttr :=
  { a with iloc := 0, ilocNoconj := 0, jlocNoconj := 0, ilocConj := 0 }

/-- Exchange of the local identifiers without conjugates; the other local identifiers are dropped. -/
def nswap (a : NlmAttr) : NlmAttr :=
  { a with iloc := 0, ilocConj := 0, ilocNoconj := a.jlocNoconj, jlocNoconj := a.ilocNoconj }

/-- The local identifiers without conjugates are kept, the others dropped. -/
def ncore (a : NlmAttr) : NlmAttr := { a with iloc := 0, ilocConj := 0 }

theorem pushNoconj_apply (v : ℕ → List NlmAttr) (t : ℕ) (a : NlmAttr) (k : ℕ) :
    pushNoconj v t a k = v k ++ if k = t ∧ a.lm.conj = false then [a] else [] := by
  unfold pushNoconj
  by_cases hc : a.lm.conj
  · rw [if_pos hc]; simp [hc]
  · rw [if_neg hc, push_apply]
    simp [hc]

/-- The entry added for type `t`. -/
def newAttr (m : TpMaps) (s : NlmLocal) (a : NlmAttr) (t : ℕ) : List NlmAttr :=
  if t = (typesOf m a.tp).1 then
    [{ a with iloc := (s.attrs (typesOf m a.tp).1).length,
              ilocNoconj := (s.noconj (typesOf m a.tp).1).length,
              jlocNoconj := (s.noconj (typesOf m a.tp).2).length }]
  else if t = (typesOf m a.tp).2 then
    [{ a with iloc := (s.attrs (typesOf m a.tp).2).length,
              ilocNoconj := (s.noconj (typesOf m a.tp).2).length,
              jlocNoconj := (s.noconj (typesOf m a.tp).1).length }]
  else []

theorem nlmLocalStep_attrs (m : TpMaps) (s : NlmLocal) (a : NlmAttr) (t : ℕ) :
    (nlmLocalStep m s a).attrs t = s.attrs t ++ newAttr m s a t := by
  unfold nlmLocalStep newAttr typesOf
  simp only
  set T := m.tpTypes.getD a.tp (0, 0)
  by_cases h : T.1 = T.2
  · rw [if_neg (by simpa using h)]
    simp only [push_apply]
    by_cases ht : t = T.1
    · simp [ht, h]
    · simp [ht, ← h]
  · rw [if_pos (by simpa using h)]
    simp only [push_apply]
    by_cases ht : t = T.1
    · have : ¬ T.1 = T.2 := h
      simp [ht, this]
    · by_cases ht2 : t = T.2
      · simp [ht, ht2, Ne.symm h]
      · simp [ht, ht2]

theorem nlmLocalStep_noconj (m : TpMaps) (s : NlmLocal) (a : NlmAttr) (t : ℕ) :
    (nlmLocalStep m s a).noconj t =
      s.noconj t ++ (newAttr m s a t).filter (fun a => !a.lm.conj) := by
  unfold nlmLocalStep newAttr typesOf
  simp only
  set T := m.tpTypes.getD a.tp (0, 0)
  by_cases h : T.1 = T.2
  · rw [if_neg (by simpa using h)]
    simp only [pushNoconj_apply]
    by_cases hc : a.lm.conj
    · by_cases ht : t = T.1
      · simp [ht, h, hc]
      · simp [ht, ← h, hc]
    · by_cases ht : t = T.1
      · simp [ht, h, hc]
      · simp [ht, ← h]
  · rw [if_pos (by simpa using h)]
    simp only [pushNoconj_apply]
    by_cases ht : t = T.1
    · have : ¬ T.1 = T.2 := h
      by_cases hc : a.lm.conj <;> simp [ht, this, hc]
    · by_cases ht2 : t = T.2
      · by_cases hc : a.lm.conj <;> simp [ht2, Ne.symm h, hc]
      · simp [ht, ht2]

theorem nlmLocalStep_iloc (m : TpMaps) (s : NlmLocal) (a : NlmAttr) (g t : ℕ) :
    (nlmLocalStep m s a).iloc g t =
      if g = a.gid ∧ t = (typesOf m a.tp).1 then (s.attrs (typesOf m a.tp).1).length
      else if g = a.gid ∧ t = (typesOf m a.tp).2 then (s.attrs (typesOf m a.tp).2).length
      else s.iloc g t := by
  unfold nlmLocalStep typesOf
  simp only
  set T := m.tpTypes.getD a.tp (0, 0)
  by_cases h : T.1 = T.2
  · rw [if_neg (by simpa using h)]
    unfold put
    by_cases h1 : g = a.gid <;> by_cases h2 : t = T.1 <;> by_cases h3 : t = T.2 <;> simp_all
  · rw [if_pos (by simpa using h)]
    unfold put
    by_cases h1 : g = a.gid <;> by_cases h2 : t = T.1 <;> by_cases h3 : t = T.2 <;> simp_all

/-- What the loop over the attributes maintains. -/
structure NlmInv (m : TpMaps) (P : List NlmAttr) : Prop where
  bare : ∀ t, ((nlmLocal m P).attrs t).map nbare = (P.filter (nrel m t)).map nbare
  iloc : ∀ (t k : ℕ) (a : NlmAttr), ((nlmLocal m P).attrs t)[k]? = some a → a.iloc = k
  noconj : ∀ t, (nlmLocal m P).noconj t = ((nlmLocal m P).attrs t).filter (fun a => !a.lm.conj)
  inoconj : ∀ (t k : ℕ) (a : NlmAttr), ((nlmLocal m P).noconj t)[k]? = some a → a.ilocNoconj = k
  swap : ∀ tp, (((nlmLocal m P).noconj (typesOf m tp).2).filter (fun a => a.tp = tp)).map ncore =
    (((nlmLocal m P).noconj (typesOf m tp).1).filter fun a => a.tp = tp).map nswap
  table : (P.map (·.gid)).Nodup →
    ∀ t, ∀ a ∈ (nlmLocal m P).attrs t, (nlmLocal m P).iloc a.gid t = a.iloc

theorem mem_nlm_gid {m : TpMaps} {P : List NlmAttr} (h : NlmInv m P) {t : ℕ} {a : NlmAttr}
    (ha : a ∈ (nlmLocal m P).attrs t) : ∃ b ∈ P, nbare b = nbare a ∧ nrel m t b := by
  have h1 : nbare a ∈ ((nlmLocal m P).attrs t).map nbare := List.mem_map.2 ⟨a, ha, rfl⟩
  rw [h.bare t, List.mem_map] at h1
  obtain ⟨b, hb, he⟩ := h1
  rw [List.mem_filter] at hb
  exact ⟨b, hb.1, he, hb.2⟩

theorem nlmInv (m : TpMaps) (P : List NlmAttr) : NlmInv m P := by
  induction P using List.reverseRecOn with
  | nil =>
    exact ⟨fun t => rfl, fun t k a h => by simp [nlmLocal] at h, fun t => rfl,
      fun t k a h => by simp [nlmLocal] at h, fun tp => rfl,
      fun _ t a h => by simp [nlmLocal] at h⟩
  | append_singleton P a ih =>
    have hat : ∀ t, (nlmLocal m (P ++ [a])).attrs t =
        (nlmLocal m P).attrs t ++ newAttr m (nlmLocal m P) a t := by
      intro t; rw [nlmLoc_snoc]; exact nlmLocalStep_attrs m _ a t
    have hnc : ∀ t, (nlmLocal m (P ++ [a])).noconj t =
        (nlmLocal m P).noconj t ++ (newAttr m (nlmLocal m P) a t).filter (fun a => !a.lm.conj) := by
      intro t; rw [nlmLoc_snoc]; exact nlmLocalStep_noconj m _ a t
    refine ⟨?_, ?_, ?_, ?_, ?_, ?_⟩
    · intro t
      rw [hat t, List.map_append, ih.bare t, List.filter_append, List.map_append]
      congr 1
      unfold newAttr
      by_cases h1 : t = (typesOf m a.tp).1
      · rw [if_pos h1]
        simp [nrel, h1, nbare]
      · rw [if_neg h1]
        by_cases h2 : t = (typesOf m a.tp).2
        · rw [if_pos h2]; simp [nrel, h2, nbare]
        · rw [if_neg h2]
          simp [nrel, Ne.symm h1, Ne.symm h2]
    · intro t k b hb
      rw [hat t] at hb
      by_cases hk : k < ((nlmLocal m P).attrs t).length
      · rw [List.getElem?_append_left hk] at hb
        exact ih.iloc t k b hb
      · rw [List.getElem?_append_right (by omega)] at hb
        unfold newAttr at hb
        split_ifs at hb with h1 h2
        · rw [List.getElem?_singleton] at hb
          split_ifs at hb with h0
          · cases hb
            simp only
            rw [← h1]; omega
        · rw [List.getElem?_singleton] at hb
          split_ifs at hb with h0
          · cases hb
            simp only
            rw [← h2]; omega
        · simp at hb
    · intro t
      rw [hnc t, hat t, List.filter_append, ih.noconj t]
    · intro t k b hb
      rw [hnc t] at hb
      by_cases hk : k < ((nlmLocal m P).noconj t).length
      · rw [List.getElem?_append_left hk] at hb
        exact ih.inoconj t k b hb
      · rw [List.getElem?_append_right (by omega)] at hb
        unfold newAttr at hb
        by_cases hc : a.lm.conj
        · exfalso
          split_ifs at hb with h1 h2 <;> simp [hc] at hb
        · split_ifs at hb with h1 h2
          · rw [List.filter_cons_of_pos (by simpa using hc), List.filter_nil,
              List.getElem?_singleton] at hb
            split_ifs at hb with h0
            · cases hb
              simp only
              rw [← h1]; omega
          · rw [List.filter_cons_of_pos (by simpa using hc), List.filter_nil,
              List.getElem?_singleton] at hb
            split_ifs at hb with h0
            · cases hb
              simp only
              rw [← h2]; omega
          · simp at hb
    · intro tp
      rw [hnc, hnc, List.filter_append, List.filter_append, List.map_append, List.map_append,
        ih.swap tp]
      congr 1
      by_cases hc : a.lm.conj
      · have : ∀ t, (newAttr m (nlmLocal m P) a t).filter (fun a => !a.lm.conj) = [] := by
          intro t
          unfold newAttr
          split_ifs <;> simp [hc]
        rw [this, this]; rfl
      by_cases htp : a.tp = tp
      · subst htp
        unfold newAttr
        rw [if_pos rfl]
        by_cases h : (typesOf m a.tp).2 = (typesOf m a.tp).1
        · rw [if_pos h]
          simp [nswap, ncore, h, hc]
        · rw [if_neg h, if_pos rfl]
          simp [nswap, ncore, hc]
      · have : ∀ t, ((newAttr m (nlmLocal m P) a t).filter (fun a => !a.lm.conj)).filter
            (fun b => decide (b.tp = tp)) = [] := by
          intro t
          unfold newAttr
          split_ifs <;> simp [hc, htp]
        rw [this, this]; rfl
    · intro hnd t b hb
      rw [List.map_append, List.nodup_append] at hnd
      rw [hat t, List.mem_append] at hb
      rw [nlmLoc_snoc, nlmLocalStep_iloc]
      rcases hb with hb | hb
      · obtain ⟨c, hc, hg, _⟩ := mem_nlm_gid ih hb
        have hg' : c.gid = b.gid := by simpa [nbare] using congrArg NlmAttr.gid hg
        have hne : b.gid ≠ a.gid := by
          rw [← hg']
          exact hnd.2.2 c.gid (List.mem_map.2 ⟨c, hc, rfl⟩) a.gid (by simp)
        rw [if_neg (fun h => hne h.1), if_neg (fun h => hne h.1)]
        exact ih.table hnd.1 t b hb
      · unfold newAttr at hb
        split_ifs at hb with h1 h2
        · simp only [List.mem_singleton] at hb
          subst hb
          simp [h1]
        · simp only [List.mem_singleton] at hb
          subst hb
          simp [h1, h2]
          intro h; exact absurd (h2.trans h) h1
        · simp at hb

theorem nlmCompact_eq (attrs : List NlmAttr) (tp : ℕ) :
    nlmCompact attrs tp = attrs.filter fun a => a.tp = tp := by
  unfold nlmCompact
  induction attrs using List.reverseRecOn with
  | nil => rfl
  | append_singleton P a ih =>
    rw [List.foldl_append, List.foldl_cons, List.foldl_nil, push_apply, ih, List.filter_append]
    congr 1
    by_cases h : tp = a.tp
    · simp [h]
    · simp [h, Ne.symm h]

/-- A global attribute of a type pair that contains `t` is a local attribute of `t`. -/
theorem local_of_global {m : TpMaps} {P : List NlmAttr} (hP : (P.map (·.gid)).Nodup) {b : NlmAttr}
    (hb : b ∈ P) {t : ℕ} (hr : nrel m t b) :
    ∃ b', ((nlmLocal m P).attrs t)[(nlmLocal m P).iloc b.gid t]? = some b' ∧ nbare b' = nbare b := by
  have hI := nlmInv m P
  have h1 : nbare b ∈ (P.filter (nrel m t)).map nbare :=
    List.mem_map.2 ⟨b, List.mem_filter.2 ⟨hb, hr⟩, rfl⟩
  rw [← hI.bare t, List.mem_map] at h1
  obtain ⟨b', hb', he⟩ := h1
  obtain ⟨k, hk⟩ := List.mem_iff_getElem?.1 hb'
  have hg : b'.gid = b.gid := by simpa [nbare] using congrArg NlmAttr.gid he
  refine ⟨b', ?_, he⟩
  rw [← hg, hI.table hP t b' hb', hI.iloc t k b' hk, hk]

end Verif.Mlp
