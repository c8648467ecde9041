import Verif.Lemmas.MlpGtContract
import Verif.Props.MlpNlm

namespace Verif.Mlp
open Verif
open Verif.Neighbor (Vec Csr r2 mkCsr)

variable {K : Type} [Field K] [LinearOrder K]

/-! ## Channels of one type -/

/-- Position of the channel with the opposite `m`. -/
def GtParams.kap (p : GtParams K) (t k : ℕ) : ℕ := ((p.attrs t)[k]?.map fun a => a.ilocConj).getD 0

/-- `m` of a channel. -/
def GtParams.mOf (p : GtParams K) (t k : ℕ) : ℤ := ((p.attrs t)[k]?.map fun a => a.lm.m).getD 0

/-- `l` of a channel. -/
def GtParams.lOf (p : GtParams K) (t k : ℕ) : ℕ := ((p.attrs t)[k]?.map fun a => a.lm.l).getD 0

theorem kap_of_get (p : GtParams K) {t k : ℕ} {a : NlmAttr} (h : (p.attrs t)[k]? = some a) :
    p.kap t k = a.ilocConj := by unfold GtParams.kap; rw [h]; rfl

theorem mOf_of_get (p : GtParams K) {t k : ℕ} {a : NlmAttr} (h : (p.attrs t)[k]? = some a) :
    p.mOf t k = a.lm.m := by unfold GtParams.mOf; rw [h]; rfl

theorem lOf_of_get (p : GtParams K) {t k : ℕ} {a : NlmAttr} (h : (p.attrs t)[k]? = some a) :
    p.lOf t k = a.lm.l := by unfold GtParams.lOf; rw [h]; rfl

theorem gt_conj (p : GtParams K) {t k : ℕ} {a : NlmAttr} (h : (p.attrs t)[k]? = some a) :
    ∃ (b : NlmAttr) (l : ℕ) (m : ℤ), (p.attrs t)[a.ilocConj]? = some b ∧
      b.n = a.n ∧ b.tp = a.tp ∧ b.nId = a.nId ∧ a.iloc = k ∧ l ≤ p.maxl ∧ -(l : ℤ) ≤ m ∧ m ≤ l ∧
      a.lm = lmAttr l m ∧ b.lm = lmAttr l (-m) ∧ b.ilocConj = k ∧ (m = 0 → a.ilocConj = k) :=
  local_conj p.nType p.nFn p.maxl p.cond t k a h

theorem gt_chanSym (p : GtParams K) (t : ℕ) : ChanSym (p.attrs t).length (p.kap t) (p.mOf t) := by
  constructor
  · intro k hk
    have h := List.getElem?_eq_getElem hk
    obtain ⟨b, l, m, hb, -⟩ := gt_conj p h
    rw [kap_of_get p h]
    exact (List.getElem?_eq_some_iff.1 hb).1
  · intro k hk
    have h := List.getElem?_eq_getElem hk
    obtain ⟨b, l, m, hb, -, -, -, -, -, -, -, -, -, hc, -⟩ := gt_conj p h
    rw [kap_of_get p h, kap_of_get p hb, hc]
  · intro k hk
    have h := List.getElem?_eq_getElem hk
    obtain ⟨b, l, m, hb, -, -, -, -, -, -, -, h1, h2, hc, -⟩ := gt_conj p h
    rw [kap_of_get p h, mOf_of_get p hb, mOf_of_get p h, h1, h2]
    simp
  · intro k hk hm
    have h := List.getElem?_eq_getElem hk
    obtain ⟨b, l, m, hb, -, -, -, -, -, -, -, h1, h2, hc, hz⟩ := gt_conj p h
    rw [mOf_of_get p h, h1, lmAttr_m] at hm
    rw [kap_of_get p h, hz hm]

theorem lOf_kap (p : GtParams K) (t : ℕ) {k : ℕ} (hk : k < (p.attrs t).length) :
    p.lOf t (p.kap t k) = p.lOf t k := by
  have h := List.getElem?_eq_getElem hk
  obtain ⟨b, l, m, hb, -, -, -, -, -, -, -, h1, h2, hc, -⟩ := gt_conj p h
  rw [kap_of_get p h, lOf_of_get p hb, lOf_of_get p h, h1, h2]
  simp

theorem gt_noconj (p : GtParams K) (t : ℕ) :
    p.noconj t = (p.attrs t).filter (fun a => !a.lm.conj) :=
  loc_noconj p.nType p.nFn p.maxl p.cond t

theorem mem_noconj (p : GtParams K) {t : ℕ} {b : NlmAttr} :
    b ∈ p.noconj t ↔ (p.attrs t)[b.iloc]? = some b ∧ b.lm.m ≤ 0 := by
  rw [gt_noconj, List.mem_filter]
  have key : ∀ k : ℕ, (p.attrs t)[k]? = some b → (((!b.lm.conj) = true) ↔ b.lm.m ≤ 0) ∧ b.iloc = k := by
    intro k h
    obtain ⟨_, l, m, -, -, -, -, hi, -, -, -, h1, -⟩ := gt_conj p h
    refine ⟨?_, hi⟩
    rw [h1, lmAttr_conj, lmAttr_m]
    simp
  constructor
  · rintro ⟨h1, h2⟩
    obtain ⟨k, hk⟩ := List.mem_iff_getElem?.1 h1
    obtain ⟨h3, h4⟩ := key k hk
    rw [h4]
    exact ⟨hk, h3.1 h2⟩
  · rintro ⟨h1, h2⟩
    exact ⟨List.mem_of_getElem? h1, (key _ h1).1.2 h2⟩

theorem noconj_pos (p : GtParams K) {t k : ℕ} {b : NlmAttr} (h : (p.noconj t)[k]? = some b) :
    b.ilocNoconj = k := by
  unfold GtParams.noconj GtParams.maps nlmMaps nlmConjIds at h
  simp only at h
  rw [List.getElem?_map] at h
  obtain ⟨a0, ha0, rfl⟩ := Option.map_eq_some_iff.1 h
  exact (nlmInv _ _).inoconj t k a0 ha0

theorem noconj_get (p : GtParams K) {t : ℕ} {b : NlmAttr} (h : b ∈ p.noconj t) :
    (p.noconj t)[b.ilocNoconj]? = some b := by
  obtain ⟨k, hk⟩ := List.mem_iff_getElem?.1 h
  rw [noconj_pos p hk, hk]

theorem gt_noconj_m (p : GtParams K) {t : ℕ} : ∀ b ∈ p.noconj t, b.lm.m = p.mOf t b.iloc := by
  intro b hb
  rw [mOf_of_get p (mem_noconj p |>.1 hb).1]

theorem sum_get_delta {α M : Type} [AddCommMonoid M] (l : List α) (ix : α → ℕ)
    (h : ∀ (k : ℕ) (a : α), l[k]? = some a → ix a = k) (g : α → M) (k : ℕ) (a : α)
    (hk : l[k]? = some a) : (l.map fun b => if k = ix b then g b else 0).sum = g a := by
  have hlt := (List.getElem?_eq_some_iff.1 hk).1
  have h1 : (l.map fun b => if k = ix b then g b else 0) =
      (List.range l.length).map fun i => if i = k then g a else 0 := by
    apply List.ext_getElem
    · simp
    · intro i hi _
      simp only [List.length_map] at hi
      simp only [List.getElem_map, List.getElem_range]
      have hi' := List.getElem?_eq_getElem hi
      rw [h i _ hi']
      by_cases hik : k = i
      · subst hik
        rw [hi'] at hk
        cases hk
        simp
      · rw [if_neg hik, if_neg (Ne.symm hik)]
  rw [h1, sum_range_delta _ _ _ hlt]

theorem gt_iloc (p : GtParams K) (t k : ℕ) (a : NlmAttr) (h : (p.attrs t)[k]? = some a) : a.iloc = k := by
  obtain ⟨_, _, _, -, -, -, -, hi, -⟩ := gt_conj p h
  exact hi

/-- Sums over the channels with `m ≤ 0` that select one channel. -/
theorem noconj_sum {M : Type} [AddCommMonoid M] (p : GtParams K) (t : ℕ) (g : NlmAttr → M) (k : ℕ)
    (a : NlmAttr) (hk : (p.attrs t)[k]? = some a) :
    ((p.noconj t).map fun b => if k = b.iloc then g b else 0).sum = if a.lm.m ≤ 0 then g a else 0 := by
  have h2 := sum_get_delta (p.attrs t) (·.iloc) (gt_iloc p t)
    (fun b => if !b.lm.conj then g b else 0) k a hk
  have h3 : (!a.lm.conj) = decide (a.lm.m ≤ 0) := by
    obtain ⟨_, l, m, -, -, -, -, hi, -, -, -, h1, -⟩ := gt_conj p hk
    rw [h1, lmAttr_conj, lmAttr_m]
    by_cases h : m ≤ 0
    · simp [h]
    · simp [h]; omega
  rw [gt_noconj, sum_filter]
  rw [h3] at h2
  simp only [decide_eq_true_eq] at h2
  rw [← h2]
  refine sum_map_congr _ _ _ ?_
  intro b _
  split_ifs <;> rfl

theorem gt_count (p : GtParams K) (t : ℕ) : ∀ k < (p.attrs t).length,
    ((p.noconj t).map fun b => if k = b.iloc then (1 : K) else 0).sum =
      if 0 < p.mOf t k then 0 else 1 := by
  intro k hk
  have h := List.getElem?_eq_getElem hk
  rw [noconj_sum p t (fun _ => (1 : K)) k _ h, mOf_of_get p h]
  by_cases hm : 0 < (p.attrs t)[k].lm.m
  · rw [if_neg (by omega), if_pos hm]
  · rw [if_pos (by omega), if_neg hm]

/-- `is_conj` of the potential. -/
def GtParams.isConj (p : GtParams K) (t h : ℕ) : Bool :=
  ((p.attrs t)[h]?.map fun a => a.lm.conj).getD false

/-- Position of a head in the potential. -/
def GtParams.target (p : GtParams K) (t h : ℕ) : Option ℕ :=
  if p.isConj t h then none else some (((p.attrs t)[h]?.map fun a => a.ilocNoconj).getD 0)

theorem gt_pot (p : GtParams K) (coeffs : ℕ → K) (t : ℕ) :
    p.pot coeffs t = mkPot true (p.isConj t) (p.target t) (p.noconj t).length (p.features t) (p.poly t)
      (fun i => 2 * coeffs i) := rfl

theorem gt_target (p : GtParams K) (t : ℕ) : ∀ b ∈ p.noconj t, b.ilocNoconj < (p.noconj t).length ∧
    ∀ q < (p.attrs t).length,
      (p.isConj t q = false ∧ p.target t q = some b.ilocNoconj) ↔ q = b.iloc := by
  intro b hb
  have hg := noconj_get p hb
  refine ⟨(List.getElem?_eq_some_iff.1 hg).1, ?_⟩
  intro q hq
  have ha := List.getElem?_eq_getElem hq
  generalize (p.attrs t)[q] = a at ha
  have hi := gt_iloc p t q a ha
  have hmem : a.lm.conj = false → a ∈ p.noconj t := by
    intro h
    rw [gt_noconj, List.mem_filter]
    exact ⟨List.mem_of_getElem? ha, by rw [h]; rfl⟩
  constructor
  · rintro ⟨h1, h2⟩
    unfold GtParams.target at h2
    rw [h1] at h2
    unfold GtParams.isConj at h1
    rw [ha] at h1 h2
    simp only [Option.map_some, Option.getD_some, Bool.false_eq_true, if_false, Option.some.injEq] at h1 h2
    have h3 := noconj_get p (hmem h1)
    rw [h2, hg] at h3
    cases h3
    exact hi.symm
  · rintro rfl
    have hb2 := ((mem_noconj p).1 hb).1
    rw [ha] at hb2
    cases hb2
    have hc : b.lm.conj = false := by
      rw [gt_noconj, List.mem_filter] at hb
      simpa using hb.2
    have h1 : p.isConj t b.iloc = false := by
      unfold GtParams.isConj; rw [ha]; exact hc
    refine ⟨h1, ?_⟩
    unfold GtParams.target
    rw [h1, ha]
    rfl

end Verif.Mlp
