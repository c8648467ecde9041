import Verif.Lemmas.MlpGtArray
import Verif.Spec.YlmRules

namespace Verif.Mlp
open Verif
open Verif.Neighbor (Vec Csr r2 mkCsr)

variable {K : Type} [Field K] [LinearOrder K]
variable (p : GtParams K) (sqrt : K → K) (types : ℕ → ℕ)

/-! ## Channels -/

theorem noconj_lm {t : ℕ} {b : NlmAttr} (h : b ∈ p.noconj t) :
    b.lm.l ≤ p.maxl ∧ b.lm.m.natAbs ≤ b.lm.l ∧ b.lm.m ≤ 0 ∧
      b.lm.ylmKey.toNat = Spec.halfIdx b.lm.l b.lm.m.natAbs ∧
      (b.lm.signJ : K) = (-1) ^ b.lm.l := by
  obtain ⟨h1, h2⟩ := (mem_noconj p).1 h
  obtain ⟨_, l, m, -, -, -, -, -, h3, h4, h5, h6, -⟩ := gt_conj p h1
  have hk := C30_ylm_key l m
  rw [h6] at h2 ⊢
  simp only [lmAttr_l, lmAttr_m] at h2 ⊢
  refine ⟨h3, by omega, h2, ?_, ?_⟩
  · rw [hk]
    unfold Spec.halfIdx
    generalize l * (l + 1) / 2 = q
    rw [abs_of_nonpos h2]
    omega
  · rw [lmAttr_signJ]
    rcases Nat.even_or_odd l with h | h
    · rw [if_pos (by rwa [Nat.even_iff] at h), h.neg_one_pow]; simp
    · rw [if_neg (by rw [Nat.odd_iff] at h; omega), h.neg_one_pow]; simp

/-- `(-1)^l` of a channel. -/
def sgK (t k : ℕ) : K := (-1) ^ p.lOf t k

/-- `(-1)^l` times a value of every attribute. -/
def sgB (g : NlmAttr → Cx K) (b : NlmAttr) : Cx K := algebraMap K (Cx K) ((-1) ^ b.lm.l) * g b

theorem extK_sgB (t : ℕ) (g : NlmAttr → Cx K) : ∀ k < (p.attrs t).length,
    extK p t (atK p t (sgB g)) k = algebraMap K (Cx K) (sgK p t k) * extK p t (atK p t g) k := by
  intro k hk
  rw [← extK_scale p t (sgK p t) (fun k hk => by unfold sgK; rw [lOf_kap p t hk]) _ k hk]
  refine extK_congr p t ?_ k hk
  intro k hk _
  have h := List.getElem?_eq_getElem hk
  rw [atK_of_get p h, atK_of_get p h, sgK, lOf_of_get p h]
  rfl

/-- `compute_anlmtp_conjugate` is the extension of its argument. -/
theorem anlmConjugate_ext (t : ℕ) (A : ℕ → Cx K)
    (h0 : ∀ b ∈ p.noconj t, b.lm.m = 0 → (A b.ilocNoconj).im = 0) :
    ∀ k < (p.attrs t).length,
      anlmConjugate (p.noconj t) A k = extK p t (atK p t fun b => A b.ilocNoconj) k := by
  intro k hk
  have ha := List.getElem?_eq_getElem hk
  generalize (p.attrs t)[k] = a at ha
  have hc := gt_chanSym p t
  obtain ⟨b, l, m, hb, -, -, -, hai, hl, hm1, hm2, hlm, hlm', hbc, hz⟩ := gt_conj p ha
  have hmem : ∀ e ∈ (p.noconj t).zipIdx, e.1 ∈ p.noconj t ∧ e.1.ilocNoconj = e.2 := by
    intro e he
    have := List.mem_zipIdx_iff_getElem?.1 he
    exact ⟨List.mem_of_getElem? this, noconj_pos p this⟩
  unfold anlmConjugate
  simp only
  apply fold_put2
  · intro e he hp _
    obtain ⟨h1, h2⟩ := hmem e he
    obtain ⟨h3, h4⟩ := (mem_noconj p).1 h1
    have : e.1 = a := by rw [hp, ha] at h3; exact (Option.some.inj h3).symm
    rw [this] at h2 h4
    unfold extK
    rw [mOf_of_get p ha, if_pos h4, atK_of_get p ha, h2]
  · intro e he hq
    obtain ⟨h1, h2⟩ := hmem e he
    obtain ⟨h3, h4⟩ := (mem_noconj p).1 h1
    have hk' : p.kap t e.1.iloc = k := by rw [kap_of_get p h3, hq]
    have hlt := (List.getElem?_eq_some_iff.1 h3).1
    have hki : p.kap t k = e.1.iloc := by rw [← hk', hc.inv _ hlt]
    have hm : p.mOf t k = -e.1.lm.m := by rw [← hk', hc.neg _ hlt, mOf_of_get p h3]
    have hcc := smul_cc p h3 (Cx.conj (A e.2))
    rw [mOf_of_get p h3] at hcc
    have hval : (⟨(e.1.lm.cc : K) * (A e.2).re, -(e.1.lm.cc : K) * (A e.2).im⟩ : Cx K) =
        algebraMap K (Cx K) (ccOf e.1.lm.m) * Cx.conj (A e.2) := by
      rw [← hcc]
      ext <;> simp
    rw [hval]
    unfold extK
    rw [hm, ccOf_neg]
    by_cases hm0 : e.1.lm.m = 0
    · have hkk : k = e.1.iloc := by
        rw [← hk', hc.zero _ hlt (by rw [mOf_of_get p h3, hm0])]
      rw [if_pos (by omega), hm0, ccOf_zero, map_one, one_mul, hkk, atK_of_get p h3, h2]
      have := h0 e.1 h1 hm0
      rw [h2] at this
      ext
      · rfl
      · rw [Cx.conj_im, this, neg_zero]
    · rw [if_neg (by omega), hki, atK_of_get p h3, h2]
  · left
    by_cases hm0 : m ≤ 0
    · have : a ∈ p.noconj t := (mem_noconj p).2 ⟨by rw [hai]; exact ha, by rw [hlm]; simpa using hm0⟩
      obtain ⟨i, hi⟩ := List.mem_iff_getElem?.1 this
      exact ⟨(a, i), List.mem_zipIdx_iff_getElem?.2 hi, Or.inl hai⟩
    · have : b ∈ p.noconj t := (mem_noconj p).2
        ⟨by rw [gt_iloc p t _ b hb]; exact hb, by rw [hlm']; simp; omega⟩
      obtain ⟨i, hi⟩ := List.mem_iff_getElem?.1 this
      exact ⟨(b, i), List.mem_zipIdx_iff_getElem?.2 hi, Or.inr hbc⟩

/-! ## The array of the evaluator -/

theorem r2_neg (d : Vec K) : r2 (-d) = r2 d := by
  unfold r2; simp

/-- Contribution of an entry to the array of the evaluator. -/
def gY (i : ℕ) (e : ℕ × Vec K) (b : NlmAttr) : Cx K :=
  if ActE p sqrt types i e b then
    Cx.smul (fnE p sqrt types i e b) (p.ylm (-e.2) b.lm.ylmKey.toNat) else 0

theorem anlmFull_eq (i : ℕ) (row : List (ℕ × Vec K)) (b : NlmAttr) (hb : b ∈ p.noconj (types i)) :
    anlmFull p sqrt types i row b.ilocNoconj = (row.map fun e => gY p sqrt types i e b).sum := by
  have hg := noconj_get p hb
  unfold anlmFull
  rw [foldl_proj (f := fun v : ℕ → Cx K => v b.ilocNoconj) (g := fun e => gY p sqrt types i e b)]
  · simp
  · intro s e _
    simp only [r2_neg, ge_iff_le]
    by_cases hcut : p.cutoff ≤ sqrt (r2 e.2)
    · rw [if_pos hcut]
      unfold gY
      rw [if_neg (fun h => h.1 hcut), add_zero]
    · rw [if_neg hcut, nlmCompact_eq]
      rw [foldl_proj (f := fun v : ℕ → Cx K => v b.ilocNoconj)
        (g := fun a => if b.ilocNoconj = a.ilocNoconj then gY p sqrt types i e a else 0)]
      · congr 1
        rw [← sum_get_delta (p.noconj (types i)) (·.ilocNoconj) (fun k a h => noconj_pos p h)
          (fun a => gY p sqrt types i e a) b.ilocNoconj b hg, sum_filter]
        refine sum_map_congr _ _ _ ?_
        intro a _
        by_cases ht : a.tp = p.maps.tp.typePairs (types i) (types e.1)
        · simp [ht]
        · have : gY p sqrt types i e a = 0 := by
            unfold gY
            rw [if_neg (fun h => ht h.2.1.symm)]
          simp [ht, this]
      · intro s a ha
        have ht : a.tp = p.maps.tp.typePairs (types i) (types e.1) := by
          simpa using (List.mem_filter.1 ha).2
        by_cases hf : fnAt p.rad (p.maps.tp.tpN.getD (p.maps.tp.typePairs (types i) (types e.1)) [])
            (sqrt (r2 e.2)) a.nId < p.tol
        · have : gY p sqrt types i e a = 0 := by
            unfold gY
            rw [if_neg (fun h => h.2.2 hf)]
          rw [if_pos hf, this]
          simp
        · have : gY p sqrt types i e a =
              Cx.smul (fnE p sqrt types i e a) (p.ylm (-e.2) a.lm.ylmKey.toNat) := by
            unfold gY
            rw [if_pos ⟨hcut, ht.symm, hf⟩]
          rw [if_neg hf, this, addAt_apply]
          rfl

/-- The rules of the spherical harmonics for an entry and for the reversed entry. -/
def YOK (d : Vec K) : Prop :=
  Spec.YlmRules p.maxl p.ylm p.ylmV p.ylmG (sqrt (r2 d)) d ∧
  Spec.YlmRules p.maxl p.ylm p.ylmV p.ylmG (sqrt (r2 d)) (-d)

theorem YOK_neg {d : Vec K} (h : YOK p sqrt d) : YOK p sqrt (-d) := by
  unfold YOK at h ⊢
  rw [r2_neg, neg_neg]
  exact ⟨h.2, h.1⟩

theorem gY_eq {i : ℕ} {e : ℕ × Vec K} (h : YOK p sqrt e.2) {b : NlmAttr} {t : ℕ} (hb : b ∈ p.noconj t) :
    gY p sqrt types i e b = sgB (gW p sqrt types i e) b := by
  obtain ⟨h1, h2, h3, h4, -⟩ := noconj_lm p hb
  unfold gY sgB gW
  split_ifs
  · rw [h4, ← h.2.value _ h1 _ h2, h.1.parity _ h1 _ h2]
    simp only [smul_eq_mul]
    ring
  · rw [mul_zero]

theorem gW_real {i : ℕ} {e : ℕ × Vec K} (h : YOK p sqrt e.2) {b : NlmAttr} {t : ℕ} (hb : b ∈ p.noconj t)
    (hm : b.lm.m = 0) : (gW p sqrt types i e b).im = 0 := by
  obtain ⟨h1, h2, h3, h4, -⟩ := noconj_lm p hb
  unfold gW
  split_ifs
  · rw [h4, hm, Cx.smul_im]
    rw [show (0 : ℤ).natAbs = 0 from rfl, h.1.real _ h1, mul_zero]
  · rfl

theorem gV_real (x : Fin 3) {i : ℕ} {e : ℕ × Vec K} (h : YOK p sqrt e.2) {b : NlmAttr} {t : ℕ}
    (hb : b ∈ p.noconj t) (hm : b.lm.m = 0) : (gV p sqrt types x i e b).im = 0 := by
  obtain ⟨h1, h2, h3, h4, -⟩ := noconj_lm p hb
  unfold gV
  split_ifs
  · rw [h4, hm]
    simp only [Cx.smul_im, Cx.add_im]
    rw [show (0 : ℤ).natAbs = 0 from rfl, h.1.real _ h1, h.1.realG _ h1]
    simp
  · rfl

theorem extK_sym {t : ℕ} (g : NlmAttr → Cx K) (h : ∀ b ∈ p.noconj t, b.lm.m = 0 → (g b).im = 0) :
    ConjSym (p.attrs t).length (p.kap t) (p.mOf t) (extK p t (atK p t g)) := by
  refine extK_conjSym p t _ ?_
  intro k hk hm
  have ha := List.getElem?_eq_getElem hk
  rw [mOf_of_get p ha] at hm
  rw [atK_of_get p ha]
  refine h _ ((mem_noconj p).2 ⟨?_, by omega⟩) hm
  rw [gt_iloc p t k _ ha]; exact ha

/-- The array of the linear model. -/
def arrM (i : ℕ) (row : List (ℕ × Vec K)) (k : ℕ) : Cx K :=
  (row.map fun e => extK p (types i) (atK p (types i) (gW p sqrt types i e)) k).sum

/-- The array of the evaluator. -/
def arrE (i : ℕ) (row : List (ℕ × Vec K)) (k : ℕ) : Cx K :=
  anlmConjugate (p.noconj (types i)) (anlmFull p sqrt types i row) k

theorem arrE_eq (i : ℕ) (row : List (ℕ × Vec K)) (h : ∀ e ∈ row, YOK p sqrt e.2) :
    ∀ k < (p.attrs (types i)).length, arrE p sqrt types i row k =
      algebraMap K (Cx K) (sgK p (types i) k) * arrM p sqrt types i row k := by
  intro k hk
  have hb : ∀ b ∈ p.noconj (types i), anlmFull p sqrt types i row b.ilocNoconj =
      (row.map fun e => sgB (gW p sqrt types i e) b).sum := by
    intro b hb
    rw [anlmFull_eq p sqrt types i row b hb]
    exact sum_map_congr _ _ _ fun e he => gY_eq p sqrt types (h e he) hb
  unfold arrE arrM
  rw [anlmConjugate_ext p (types i) _ ?_ k hk, ← List.sum_map_mul_left]
  · rw [extK_congr p (types i) (w' := fun k => (row.map fun e =>
      atK p (types i) (sgB (gW p sqrt types i e)) k).sum) ?_ k hk, extK_sum]
    · exact sum_map_congr _ _ _ fun e _ => extK_sgB p (types i) _ k hk
    · intro k hk hm
      have ha := List.getElem?_eq_getElem hk
      rw [atK_of_get p ha, hb]
      · refine sum_map_congr _ _ _ ?_
        intro e _
        rw [atK_of_get p ha]
      · refine (mem_noconj p).2 ⟨?_, ?_⟩
        · rw [gt_iloc p (types i) k _ ha]; exact ha
        · rw [← mOf_of_get p ha]; exact hm
  · intro b hb' hm
    rw [hb b hb']
    have : ∀ e ∈ row, (sgB (gW p sqrt types i e) b).im = 0 := by
      intro e he
      unfold sgB
      rw [algebraMap_cx, Cx.mul_im, gW_real p sqrt types (h e he) hb' hm]
      simp
    have key : ∀ l : List (ℕ × Vec K), (∀ e ∈ l, (sgB (gW p sqrt types i e) b).im = 0) →
        ((l.map fun e => sgB (gW p sqrt types i e) b).sum).im = 0 := by
      intro l
      induction l with
      | nil => intro _; rfl
      | cons e l ih =>
        intro hl
        rw [List.map_cons, List.sum_cons, Cx.add_im, hl e (by simp), ih (fun e he => hl e (by simp [he])),
          add_zero]
    exact key row this

theorem arrM_sym (i : ℕ) (row : List (ℕ × Vec K)) (h : ∀ e ∈ row, YOK p sqrt e.2) :
    ConjSym (p.attrs (types i)).length (p.kap (types i)) (p.mOf (types i)) (arrM p sqrt types i row) := by
  intro k hk
  unfold arrM
  rw [← conjHom_apply, map_list_sum, List.map_map, ← List.sum_map_mul_left]
  refine sum_map_congr _ _ _ ?_
  intro e he
  exact extK_sym p _ (fun b hb hm => gW_real p sqrt types (h e he) hb hm) k hk

theorem arrE_sym (i : ℕ) (row : List (ℕ × Vec K)) (h : ∀ e ∈ row, YOK p sqrt e.2) :
    ConjSym (p.attrs (types i)).length (p.kap (types i)) (p.mOf (types i)) (arrE p sqrt types i row) := by
  intro k hk
  have hc := gt_chanSym p (types i)
  rw [arrE_eq p sqrt types i row h k hk, arrE_eq p sqrt types i row h _ (hc.lt k hk),
    arrM_sym p sqrt types i row h k hk, conj_algebraMap]
  unfold sgK
  rw [lOf_kap p _ hk]
  ring

/-! ## The entries of the evaluator -/

theorem noconj_swap {ti tj : ℕ} (hi : ti < p.nType) (hj : tj < p.nType) :
    ((p.noconj tj).filter fun a => a.tp = p.maps.tp.typePairs ti tj).map ncore =
      ((p.noconj ti).filter fun a => a.tp = p.maps.tp.typePairs ti tj).map nswap := by
  have hI := (nlmInv (setTypePairs p.nType p.cond)
    (nlmGlobal (setTypePairs p.nType p.cond) p.nFn p.maxl).attrs).swap (p.maps.tp.typePairs ti tj)
  have hT : typesOf (setTypePairs p.nType p.cond) (p.maps.tp.typePairs ti tj) = (min ti tj, max ti tj) :=
    typesOf_typePairs p.nType p.cond hi hj
  rw [hT] at hI
  have hfilt : ∀ (t : ℕ) (f : NlmAttr → NlmAttr), (∀ (a : NlmAttr) (c : ℕ), f { a with ilocConj := c } = f a) →
      ((p.noconj t).filter fun a => a.tp = p.maps.tp.typePairs ti tj).map f =
      (((nlmLocal (setTypePairs p.nType p.cond)
        (nlmGlobal (setTypePairs p.nType p.cond) p.nFn p.maxl).attrs).noconj t).filter
          fun a => a.tp = p.maps.tp.typePairs ti tj).map f := by
    intro t f hf
    unfold GtParams.noconj
    generalize p.maps.tp.typePairs ti tj = tp
    unfold GtParams.maps nlmMaps nlmConjIds
    simp only
    rw [List.filter_map, List.map_map]
    refine List.map_congr_left ?_
    intro a _
    exact hf a _
  rw [hfilt tj ncore (fun _ _ => rfl), hfilt ti nswap (fun _ _ => rfl)]
  rcases le_total ti tj with h | h
  · rw [min_eq_left h, max_eq_right h] at hI
    exact hI
  · rw [min_eq_right h, max_eq_left h] at hI
    have := congrArg (List.map nswap) hI
    rw [List.map_map, List.map_map] at this
    exact this.symm

/-- Contraction of values of the attributes with the sums of one atom. -/
def sideR (t : ℕ) (P : ℕ → Cx K) (g : NlmAttr → Cx K) : K :=
  ((p.noconj t).map fun b => prodReal (g b) (Cx.smul (if b.lm.m = 0 then 1 / 2 else 1)
    (P b.ilocNoconj))).sum

/-- Sum over the compact list of an entry. -/
theorem entry_sum {i j : ℕ} (hi : types i < p.nType) (hj : types j < p.nType) (P : ℕ → ℕ → Cx K)
    (V : LmAttr → ℕ → Cx K) (ok : ℕ → Prop) [DecidablePred ok] :
    ((nlmCompact (p.noconj (types i)) (p.maps.tp.typePairs (types i) (types j))).map fun b =>
      if ok b.nId then prodReal (V b.lm b.nId) (Cx.smul (if b.lm.m = 0 then 1 / 2 else 1)
        (P i b.ilocNoconj + Cx.smul (b.lm.signJ : K) (P j b.jlocNoconj))) else 0).sum =
    sideR p (types i) (P i) (fun b => if p.maps.tp.typePairs (types i) (types j) = b.tp ∧ ok b.nId then
      V b.lm b.nId else 0) +
    sideR p (types j) (P j) (fun b => if p.maps.tp.typePairs (types i) (types j) = b.tp ∧ ok b.nId then
      Cx.smul (b.lm.signJ : K) (V b.lm b.nId) else 0) := by
  have hs := noconj_swap p hi hj
  have hlin : ∀ (v x y : Cx K) (f s : K), prodReal v (Cx.smul f (x + Cx.smul s y)) =
      prodReal v (Cx.smul f x) + prodReal (Cx.smul s v) (Cx.smul f y) := by
    intro v x y f s
    simp only [prodReal, Cx.smul_re, Cx.smul_im, Cx.add_re, Cx.add_im]
    ring
  have hz : ∀ y : Cx K, prodReal 0 y = 0 := by intro y; simp [prodReal]
  unfold sideR
  rw [nlmCompact_eq]
  have h1 : ∀ (t : ℕ) (W : NlmAttr → Cx K) (Q : ℕ → Cx K),
      ((p.noconj t).map fun b => prodReal (if p.maps.tp.typePairs (types i) (types j) = b.tp ∧ ok b.nId then
        W b else 0) (Cx.smul (if b.lm.m = 0 then 1 / 2 else 1) (Q b.ilocNoconj))).sum =
      (((p.noconj t).filter fun a => a.tp = p.maps.tp.typePairs (types i) (types j)).map fun b =>
        if ok b.nId then prodReal (W b) (Cx.smul (if b.lm.m = 0 then 1 / 2 else 1) (Q b.ilocNoconj))
        else 0).sum := by
    intro t W Q
    rw [sum_filter]
    refine sum_map_congr _ _ _ ?_
    intro b _
    by_cases ht : b.tp = p.maps.tp.typePairs (types i) (types j)
    · by_cases ho : ok b.nId
      · simp [ht, ho]
      · simp [ho, hz]
    · simp [ht, Ne.symm ht, hz]
  rw [h1, h1]
  have h2 : (((p.noconj (types j)).filter fun a => a.tp = p.maps.tp.typePairs (types i) (types j)).map
      fun b => if ok b.nId then prodReal (Cx.smul (b.lm.signJ : K) (V b.lm b.nId))
        (Cx.smul (if b.lm.m = 0 then 1 / 2 else 1) (P j b.ilocNoconj)) else 0) =
      (((p.noconj (types j)).filter fun a => a.tp = p.maps.tp.typePairs (types i) (types j)).map ncore).map
      fun b => if ok b.nId then prodReal (Cx.smul (b.lm.signJ : K) (V b.lm b.nId))
        (Cx.smul (if b.lm.m = 0 then 1 / 2 else 1) (P j b.ilocNoconj)) else 0 := by
    rw [List.map_map]; rfl
  rw [h2, hs, List.map_map, ← List.sum_map_add]
  refine sum_map_congr _ _ _ ?_
  intro b _
  change _ = _ + if ok b.nId then prodReal (Cx.smul (b.lm.signJ : K) (V b.lm b.nId))
    (Cx.smul (if b.lm.m = 0 then 1 / 2 else 1) (P j b.jlocNoconj)) else 0
  by_cases ho : ok b.nId
  · simp only [if_pos ho]
    rw [hlin]
  · simp only [if_neg ho, add_zero]

theorem sideR_congr {t : ℕ} (P : ℕ → Cx K) {g g' : NlmAttr → Cx K} (h : ∀ b ∈ p.noconj t, g b = g' b) :
    sideR p t P g = sideR p t P g' := by
  unfold sideR
  refine sum_map_congr _ _ _ ?_
  intro b hb
  rw [h b hb]

theorem sideR_neg (t : ℕ) (P : ℕ → Cx K) (g : NlmAttr → Cx K) :
    sideR p t P (fun b => -g b) = -sideR p t P g := by
  unfold sideR
  rw [← sum_map_neg']
  refine sum_map_congr _ _ _ ?_
  intro b _
  simp only [prodReal, Cx.neg_re, Cx.neg_im]
  ring

theorem sideR_zero (t : ℕ) (P : ℕ → Cx K) (g : NlmAttr → Cx K) (h : ∀ b, g b = 0) :
    sideR p t P (sgB g) = 0 := by
  unfold sideR
  apply List.sum_eq_zero
  intro y hy
  rw [List.mem_map] at hy
  obtain ⟨b, -, rfl⟩ := hy
  simp [sgB, h b, prodReal]

/-- The reversed entry contributes to the same attributes. -/
theorem rev_facts {i : ℕ} {e : ℕ × Vec K} (hi : types i < p.nType) (hj : types e.1 < p.nType) :
    tpE p types e.1 (i, -e.2) = tpE p types i e ∧
    (∀ b, fnE p sqrt types e.1 (i, -e.2) b = fnE p sqrt types i e b) ∧
    (∀ b, fnDE p sqrt types e.1 (i, -e.2) b = fnDE p sqrt types i e b) ∧
    (∀ b, ActE p sqrt types e.1 (i, -e.2) b ↔ ActE p sqrt types i e b) := by
  have h1 : tpE p types e.1 (i, -e.2) = tpE p types i e := typePairs_symm p.nType p.cond hj hi
  have h2 : ∀ b, fnE p sqrt types e.1 (i, -e.2) b = fnE p sqrt types i e b := by
    intro b; unfold fnE; rw [h1, r2_neg]
  refine ⟨h1, h2, ?_, ?_⟩
  · intro b; unfold fnDE; rw [h1, r2_neg]
  · intro b; unfold ActE; rw [h1, h2, r2_neg]

/-- `e_ij` of an entry. -/
theorem entry_energy {i : ℕ} {e : ℕ × Vec K} (hi : types i < p.nType) (hj : types e.1 < p.nType)
    (h : YOK p sqrt e.2) (pe pf : ℕ → ℕ → Cx K) :
    (gtEvalEntry p sqrt pe pf types i e).1 =
      sideR p (types i) (pe i) (sgB (gW p sqrt types i e)) +
      sideR p (types e.1) (pe e.1) (sgB (gW p sqrt types e.1 (i, -e.2))) := by
  obtain ⟨-, r2', -, r4⟩ := rev_facts p sqrt types hi hj (e := e)
  unfold gtEvalEntry
  simp only [r2_neg, ge_iff_le]
  by_cases hcut : p.cutoff ≤ sqrt (r2 e.2)
  · rw [if_pos hcut, sideR_zero, sideR_zero, add_zero]
    · intro b
      unfold gW
      rw [if_neg (fun h => ((r4 b).1 h).1 hcut)]
    · intro b
      unfold gW
      rw [if_neg (fun h => h.1 hcut)]
  · rw [if_neg hcut]
    let V : LmAttr → ℕ → Cx K := fun lm k =>
      Cx.smul (fnAt p.rad (p.maps.tp.tpN.getD (p.maps.tp.typePairs (types i) (types e.1)) [])
        (sqrt (r2 e.2)) k) (p.ylmV (sqrt (r2 e.2)) (-e.2) lm.ylmKey.toNat)
    let ok : ℕ → Prop := fun k =>
      ¬fnAt p.rad (p.maps.tp.tpN.getD (p.maps.tp.typePairs (types i) (types e.1)) [])
        (sqrt (r2 e.2)) k < p.tol
    have hif : ∀ b, ActE p sqrt types i e b ↔
        (p.maps.tp.typePairs (types i) (types e.1) = b.tp ∧ ok b.nId) :=
      fun b => ⟨fun h => h.2, fun h => ⟨hcut, h⟩⟩
    rw [foldl_proj (f := fun s : K × Vec K => s.1) (g := fun b : NlmAttr =>
      if ok b.nId then prodReal (V b.lm b.nId) (Cx.smul (if b.lm.m = 0 then 1 / 2 else 1)
        (pe i b.ilocNoconj + Cx.smul (b.lm.signJ : K) (pe e.1 b.jlocNoconj))) else 0)]
    · rw [entry_sum p types hi hj pe V ok, zero_add]
      have hval : ∀ b t, b ∈ p.noconj t → V b.lm b.nId =
          algebraMap K (Cx K) ((-1) ^ b.lm.l) * Cx.smul (fnE p sqrt types i e b)
            (p.ylmV (sqrt (r2 e.2)) e.2 b.lm.ylmKey.toNat) := by
        intro b t hb
        obtain ⟨h1, h2, h3, h4, -⟩ := noconj_lm p hb
        simp only [V]
        rw [h4, h.1.parity _ h1 _ h2]
        simp only [smul_eq_mul]
        unfold fnE tpE
        ring
      congr 1
      · refine sideR_congr p _ ?_
        intro b hb
        unfold sgB gW
        by_cases hA : ActE p sqrt types i e b
        · rw [if_pos hA, if_pos ((hif b).1 hA), hval b _ hb]
        · rw [if_neg hA, if_neg (fun h => hA ((hif b).2 h)), mul_zero]
      · refine sideR_congr p _ ?_
        intro b hb
        obtain ⟨h1, h2, h3, h4, h5⟩ := noconj_lm p hb
        unfold sgB gW
        by_cases hA : ActE p sqrt types i e b
        · rw [if_pos ((r4 b).2 hA), if_pos ((hif b).1 hA), r2', h5, r2_neg, smul_eq_mul]
          rfl
        · rw [if_neg (fun h => hA ((r4 b).1 h)), if_neg (fun h => hA ((hif b).2 h)), mul_zero]
    · intro s b _
      unfold gtEntryStep
      by_cases hf : fnAt p.rad (p.maps.tp.tpN.getD (p.maps.tp.typePairs (types i) (types e.1)) [])
          (sqrt (r2 e.2)) b.nId < p.tol
      · rw [if_pos hf, if_neg (not_not.2 hf), add_zero]
      · rw [if_neg hf, if_pos hf]

/-- The force of an entry. -/
theorem entry_force {i : ℕ} {e : ℕ × Vec K} (hi : types i < p.nType) (hj : types e.1 < p.nType)
    (h : YOK p sqrt e.2) (pe pf : ℕ → ℕ → Cx K) (x : Fin 3) :
    (gtEvalEntry p sqrt pe pf types i e).2 x =
      sideR p (types i) (pf i) (sgB (gV p sqrt types x i e)) -
      sideR p (types e.1) (pf e.1) (sgB (gV p sqrt types x e.1 (i, -e.2))) := by
  obtain ⟨-, r2', r3, r4⟩ := rev_facts p sqrt types hi hj (e := e)
  unfold gtEvalEntry
  simp only [r2_neg, ge_iff_le]
  by_cases hcut : p.cutoff ≤ sqrt (r2 e.2)
  · rw [if_pos hcut, sideR_zero, sideR_zero, sub_zero]
    · rfl
    · intro b
      unfold gV
      rw [if_neg (fun h => ((r4 b).1 h).1 hcut)]
    · intro b
      unfold gV
      rw [if_neg (fun h => h.1 hcut)]
  · rw [if_neg hcut]
    let V : LmAttr → ℕ → Cx K := fun lm k =>
      -(Cx.smul ((-e.2) x) (Cx.smul (1 / sqrt (r2 e.2)) (Cx.smul
        (fnAt p.radD (p.maps.tp.tpN.getD (p.maps.tp.typePairs (types i) (types e.1)) [])
        (sqrt (r2 e.2)) k) (p.ylmV (sqrt (r2 e.2)) (-e.2) lm.ylmKey.toNat))) +
      Cx.smul (fnAt p.rad (p.maps.tp.tpN.getD (p.maps.tp.typePairs (types i) (types e.1)) [])
        (sqrt (r2 e.2)) k) (p.ylmG (sqrt (r2 e.2)) (-e.2) lm.ylmKey.toNat x))
    let ok : ℕ → Prop := fun k =>
      ¬fnAt p.rad (p.maps.tp.tpN.getD (p.maps.tp.typePairs (types i) (types e.1)) [])
        (sqrt (r2 e.2)) k < p.tol
    have hif : ∀ b, ActE p sqrt types i e b ↔
        (p.maps.tp.typePairs (types i) (types e.1) = b.tp ∧ ok b.nId) :=
      fun b => ⟨fun h => h.2, fun h => ⟨hcut, h⟩⟩
    rw [foldl_proj (f := fun s : K × Vec K => s.2 x) (g := fun b : NlmAttr =>
      if ok b.nId then prodReal (V b.lm b.nId) (Cx.smul (if b.lm.m = 0 then 1 / 2 else 1)
        (pf i b.ilocNoconj + Cx.smul (b.lm.signJ : K) (pf e.1 b.jlocNoconj))) else 0)]
    · rw [entry_sum p types hi hj pf V ok, sub_eq_add_neg, ← sideR_neg]
      rw [show ((0, 0) : K × Vec K).2 x = 0 from rfl, zero_add]
      congr 1
      · refine sideR_congr p _ ?_
        intro b hb
        unfold sgB gV
        by_cases hA : ActE p sqrt types i e b
        · rw [if_pos hA, if_pos ((hif b).1 hA)]
          obtain ⟨h1, h2, h3, h4, -⟩ := noconj_lm p hb
          simp only [V]
          rw [h4, h.1.parity _ h1 _ h2, h.1.parityG _ h1 _ h2]
          simp only [smul_eq_mul, Pi.neg_apply, map_neg]
          unfold fnE fnDE tpE
          ring
        · rw [if_neg hA, if_neg (fun h => hA ((hif b).2 h)), mul_zero]
      · refine sideR_congr p _ ?_
        intro b hb
        obtain ⟨h1, h2, h3, h4, h5⟩ := noconj_lm p hb
        unfold sgB gV
        by_cases hA : ActE p sqrt types i e b
        · rw [if_pos ((r4 b).2 hA), if_pos ((hif b).1 hA), r2', r3, h5, r2_neg, smul_eq_mul, ← mul_neg]
          rfl
        · rw [if_neg (fun h => hA ((r4 b).1 h)), if_neg (fun h => hA ((hif b).2 h)), mul_zero, neg_zero]
    · intro s b _
      unfold gtEntryStep
      by_cases hf : fnAt p.rad (p.maps.tp.tpN.getD (p.maps.tp.typePairs (types i) (types e.1)) [])
          (sqrt (r2 e.2)) b.nId < p.tol
      · rw [if_pos hf, if_neg (not_not.2 hf), add_zero]
      · rw [if_neg hf, if_pos hf]

end Verif.Mlp
