import Verif.Props.MlpGtEval
import Verif.Spec.GtRotation

/-!
# Rotations of the features

The virial of every feature is symmetric because the features are invariant under rotations.
-/

namespace Verif.Mlp
open Verif
open Verif.Neighbor (Vec Csr r2 mkCsr)

variable {K : Type} [Field K] [LinearOrder K]

/-! ## Harmonics with all `m` -/

theorem full_neg (h : ℕ → Cx K) (l : ℕ) (m : ℤ) (h0 : (h (Spec.halfIdx l 0)).im = 0) :
    Spec.full h l (-m) = Cx.smul (ccOf m) (Cx.conj (Spec.full h l m)) := by
  unfold Spec.full ccOf
  rw [Int.natAbs_neg]
  have h1 : ((-1 : K) ^ m.natAbs) * (-1) ^ m.natAbs = 1 := by
    rw [← mul_pow]; simp
  rcases lt_trichotomy m 0 with hm | hm | hm
  · rw [if_neg (by omega), if_pos (by omega)]
  · subst hm
    simp only [neg_zero, le_refl, if_true, Int.natAbs_zero, pow_zero]
    ext <;> simp [h0]
  · rw [if_pos (by omega), if_neg (by omega)]
    ext
    · simp only [Cx.smul_re, Cx.conj_re]
      rw [← mul_assoc, h1, one_mul]
    · simp only [Cx.smul_im, Cx.conj_im, mul_neg, neg_neg, Cx.smul_im]
      rw [← mul_assoc, h1, one_mul]

/-- The lowering operator. -/
theorem lower_of_raise {maxl : ℕ} {s : ℕ → ℤ → K} {Y : ℕ → Cx K} {G : ℕ → Fin 3 → Cx K} {d : Vec K}
    (hs : Spec.Ladder s) (h : Spec.RotRules maxl s Y G d)
    (hr : ∀ l ≤ maxl, (Y (Spec.halfIdx l 0)).im = 0)
    (hrG : ∀ l ≤ maxl, ∀ x, (G (Spec.halfIdx l 0) x).im = 0)
    (l : ℕ) (hl : l ≤ maxl) (m : ℤ) (h1 : -(l : ℤ) ≤ m) (h2 : m ≤ l) :
    Spec.full (Spec.turn G d 1 2) l m - ⟨0, 1⟩ * Spec.full (Spec.turn G d 2 0) l m =
      ⟨0, s l (m - 1)⟩ * Spec.full Y l (m - 1) := by
  have ht : ∀ a b, (Spec.turn G d a b (Spec.halfIdx l 0)).im = 0 := by
    intro a b
    simp [Spec.turn, hrG l hl]
  have hup := h.raise l hl (-m) (by omega) (by omega)
  rw [full_neg _ l m (ht 1 2), full_neg _ l m (ht 2 0), show -m + 1 = -(m - 1) by ring,
    full_neg _ l (m - 1) (hr l hl), show -m = -(m - 1) - 1 by ring, hs.flip] at hup
  have hcc : (ccOf (m - 1) : K) = -ccOf m := by
    rw [ccOf_zpow, ccOf_zpow, zpow_sub₀ (by norm_num : (-1 : K) ≠ 0), zpow_one, div_neg, div_one]
  have hc2 : (ccOf m : K) * ccOf m = 1 := by
    unfold ccOf
    rw [← mul_pow]; simp
  rw [hcc] at hup
  generalize Spec.full (Spec.turn G d 1 2) l m = A at *
  generalize Spec.full (Spec.turn G d 2 0) l m = B at *
  generalize Spec.full Y l (m - 1) = C at *
  generalize (ccOf m : K) = c at *
  have e1 := congrArg Cx.re hup
  have e2 := congrArg Cx.im hup
  simp only [Cx.add_re, Cx.mul_re, Cx.smul_re, Cx.conj_re, Cx.smul_im, Cx.conj_im, Cx.add_im, Cx.mul_im,
    zero_mul, zero_sub, one_mul, zero_add] at e1 e2
  ext
  · simp only [Cx.sub_re, Cx.mul_re, zero_mul, zero_sub, one_mul]
    linear_combination c * e1 - (A.re + B.im + s l (m - 1) * C.im) * hc2
  · simp only [Cx.sub_im, Cx.mul_im, zero_mul, zero_add, one_mul]
    linear_combination -c * e2 - (A.im - B.re - s l (m - 1) * C.re) * hc2

/-! ## Products -/

section Leib
variable {A : Type} [CommRing A]

theorem leib_factor (a c : ℕ → A) (ids : List ℕ) :
    leib a (fun k => c k * a k) ids = (ids.map c).sum * (ids.map a).prod := by
  induction ids with
  | nil => simp [leib]
  | cons x l ih => rw [leib, ih, List.map_cons, List.map_cons, List.sum_cons, List.prod_cons]; ring

end Leib

theorem cx_zero_mul (z : Cx K) : (⟨0, 0⟩ : Cx K) * z = 0 := by ext <;> simp

/-- Complex value of `featD`. -/
def featC (features : List (List (SingleTerm K))) (a w : ℕ → Cx K) (f : ℕ) : Cx K :=
  ((features.getD f []).map fun s => algebraMap K (Cx K) s.1 * leib a w s.2).sum

theorem featD_re (features : List (List (SingleTerm K))) (a w : ℕ → Cx K) (f : ℕ) :
    featD features a w f = (featC features a w f).re := by
  unfold featD featC
  rw [re_sum]
  refine sum_map_congr _ _ _ ?_
  intro s _
  rw [re_algebraMap_mul]

theorem featC_add (features : List (List (SingleTerm K))) (a w w' : ℕ → Cx K) (f : ℕ) :
    featC features a (fun k => w k + w' k) f = featC features a w f + featC features a w' f := by
  unfold featC
  rw [← List.sum_map_add]
  refine sum_map_congr _ _ _ ?_
  intro s _
  rw [leib_add, mul_add]

theorem featC_mul (features : List (List (SingleTerm K))) (a w : ℕ → Cx K) (c : Cx K) (f : ℕ) :
    featC features a (fun k => c * w k) f = c * featC features a w f := by
  unfold featC
  rw [← List.sum_map_mul_left]
  refine sum_map_congr _ _ _ ?_
  intro s _
  rw [leib_mul]
  ring

/-! ## Channels -/

variable (p : GtParams K) (sqrt : K → K) (types : ℕ → ℕ)

theorem nId_of_get {t k : ℕ} {a : NlmAttr} (h : (p.attrs t)[k]? = some a) :
    a.nId = nIdTable (p.maps.tp.tpN.getD a.tp []) a.n := by
  have h' : ((nlmConjIds (nlmLocal (setTypePairs p.nType p.cond)
      (nlmGlobal (setTypePairs p.nType p.cond) p.nFn p.maxl).attrs)).attrs t)[k]? = some a := h
  unfold nlmConjIds at h'
  simp only at h'
  rw [List.getElem?_map, Option.map_eq_some_iff] at h'
  obtain ⟨a', ha', rfl⟩ := h'
  obtain ⟨b, hb, hbare, -⟩ := mem_nlm_gid (nlmInv _ _) (List.mem_of_getElem? ha')
  obtain ⟨g, hg⟩ := List.mem_iff_getElem?.1 hb
  obtain ⟨-, hinv, -⟩ := nlmFold_inv (setTypePairs p.nType p.cond)
    (nlmIter (setTypePairs p.nType p.cond) p.nFn p.maxl)
  obtain ⟨c, -, hA⟩ := hinv g b hg
  have e1 := congrArg NlmAttr.nId hbare
  have e2 := congrArg NlmAttr.n hbare
  have e3 := congrArg NlmAttr.tp hbare
  simp only [nbare] at e1 e2 e3
  show a'.nId = nIdTable ((setTypePairs p.nType p.cond).tpN.getD a'.tp []) a'.n
  rw [← e1, ← e2, ← e3, hA.nId, hA.n, hA.tp]

/-- The extension of the values of an entry. -/
theorem ext_full (φ : ℕ → ℕ → K) (h : ℕ → Cx K) {t k l : ℕ} {m : ℤ} {a : NlmAttr}
    (ha : (p.attrs t)[k]? = some a) (hlm : a.lm = lmAttr l m) :
    extK p t (atK p t fun b => Cx.smul (φ b.tp b.nId) (h b.lm.ylmKey.toNat)) k =
      Cx.smul (φ a.tp a.nId) (Spec.full h l m) := by
  obtain ⟨b, l', m', hb, -, htp, hnid, -, -, hm1, hm2, hlm', hblm, -⟩ := gt_conj p ha
  have el : l' = l := by
    have := congrArg LmAttr.l (hlm'.symm.trans hlm); simpa using this
  have em : m' = m := by
    have := congrArg LmAttr.m (hlm'.symm.trans hlm); simpa using this
  subst el em
  have key : ∀ m : ℤ, m ≤ 0 → -(l' : ℤ) ≤ m →
      (lmAttr l' m).ylmKey.toNat = Spec.halfIdx l' m.natAbs := by
    intro m h1 h2
    rw [C30_ylm_key l' m]
    unfold Spec.halfIdx
    generalize l' * (l' + 1) / 2 = q
    rw [abs_of_nonpos h1]
    omega
  unfold extK Spec.full
  rw [mOf_of_get p ha, hlm, lmAttr_m]
  split_ifs with hm
  · rw [atK_of_get p ha, hlm, key m' hm hm1]
  · rw [kap_of_get p ha, atK_of_get p hb, hblm, key (-m') (by omega) (by omega), Int.natAbs_neg, htp, hnid]
    unfold ccOf
    ext <;> simp only [Cx.mul_re, Cx.mul_im, Cx.smul_re, Cx.smul_im, Cx.conj_re, Cx.conj_im,
      algebraMap_cx] <;> ring

/-- The radial function of an entry, zero if the entry does not contribute. -/
def phiE (i : ℕ) (e : ℕ × Vec K) (tp nId : ℕ) : K :=
  if ¬p.cutoff ≤ sqrt (r2 e.2) ∧ tpE p types i e = tp ∧
      ¬fnAt p.rad (p.maps.tp.tpN.getD (tpE p types i e) []) (sqrt (r2 e.2)) nId < p.tol then
    fnAt p.rad (p.maps.tp.tpN.getD (tpE p types i e) []) (sqrt (r2 e.2)) nId else 0

theorem phi_act (i : ℕ) (e : ℕ × Vec K) (b : NlmAttr) : phiE p sqrt types i e b.tp b.nId =
    if ActE p sqrt types i e b then fnE p sqrt types i e b else 0 := by
  unfold phiE ActE fnE
  rfl

theorem gW_phi (i : ℕ) (e : ℕ × Vec K) (b : NlmAttr) : gW p sqrt types i e b =
    Cx.smul (phiE p sqrt types i e b.tp b.nId) (p.ylmV (sqrt (r2 e.2)) e.2 b.lm.ylmKey.toNat) := by
  rw [phi_act]
  unfold gW
  by_cases h : ActE p sqrt types i e b
  · rw [if_pos h, if_pos h]
  · rw [if_neg h, if_neg h]
    ext <;> simp

/-- The rotation of the contribution of an entry. -/
def gT (a c : Fin 3) (i : ℕ) (e : ℕ × Vec K) (b : NlmAttr) : Cx K :=
  Cx.smul (e.2 a) (gV p sqrt types c i e b) - Cx.smul (e.2 c) (gV p sqrt types a i e b)

theorem gT_phi (a c : Fin 3) (i : ℕ) (e : ℕ × Vec K) (b : NlmAttr) : gT p sqrt types a c i e b =
    Cx.smul (phiE p sqrt types i e b.tp b.nId)
      (Spec.turn (p.ylmG (sqrt (r2 e.2)) e.2) e.2 a c b.lm.ylmKey.toNat) := by
  rw [phi_act]
  unfold gT gV Spec.turn
  by_cases h : ActE p sqrt types i e b
  · rw [if_pos h, if_pos h, if_pos h]
    ext <;> simp only [Cx.sub_re, Cx.sub_im, Cx.smul_re, Cx.smul_im, Cx.add_re, Cx.add_im] <;> ring
  · rw [if_neg h, if_neg h, if_neg h]
    ext <;> simp

/-- The rotation of the array. -/
def arrT (a c : Fin 3) (i : ℕ) (row : List (ℕ × Vec K)) (k : ℕ) : Cx K :=
  (row.map fun e => extK p (types i) (atK p (types i) (gT p sqrt types a c i e)) k).sum

/-- Rules of rotation at an entry. -/
def ROK (s : ℕ → ℤ → K) (d : Vec K) : Prop :=
  Spec.RotRules p.maxl s (p.ylmV (sqrt (r2 d)) d) (p.ylmG (sqrt (r2 d)) d) d ∧
  (∀ l ≤ p.maxl, (p.ylmV (sqrt (r2 d)) d (Spec.halfIdx l 0)).im = 0) ∧
  ∀ l ≤ p.maxl, ∀ x, (p.ylmG (sqrt (r2 d)) d (Spec.halfIdx l 0) x).im = 0

section Arr
variable (hcond : ∀ i j, (p.cond i j).Nodup)
include hcond

theorem arrM_at (i : ℕ) (row : List (ℕ × Vec K)) {n l tp : ℕ} {m : ℤ} (hn : n < p.nFn) (hl : l ≤ p.maxl)
    (h1 : -(l : ℤ) ≤ m) (h2 : m ≤ l) (htp : PairOK p n tp (types i)) :
    arrM p sqrt types i row (kIdx p n (Spec.lmIdx l m) tp (types i)) =
      (row.map fun e => Cx.smul (phiE p sqrt types i e tp (nIdTable (p.maps.tp.tpN.getD tp []) n))
        (Spec.full (p.ylmV (sqrt (r2 e.2)) e.2) l m)).sum := by
  obtain ⟨a, ha, e1, e2, e3⟩ := kIdx_get p hcond hn hl h1 h2 htp
  unfold arrM
  refine sum_map_congr _ _ _ ?_
  intro e _
  have h := nId_of_get p ha
  rw [e1, e3] at h
  have := ext_full p (phiE p sqrt types i e) (p.ylmV (sqrt (r2 e.2)) e.2) ha e2
  rw [e3, h] at this
  rw [← this]
  congr 2
  funext b
  exact gW_phi p sqrt types i e b

theorem arrT_at (x y : Fin 3) (i : ℕ) (row : List (ℕ × Vec K)) {n l tp : ℕ} {m : ℤ} (hn : n < p.nFn)
    (hl : l ≤ p.maxl) (h1 : -(l : ℤ) ≤ m) (h2 : m ≤ l) (htp : PairOK p n tp (types i)) :
    arrT p sqrt types x y i row (kIdx p n (Spec.lmIdx l m) tp (types i)) =
      (row.map fun e => Cx.smul (phiE p sqrt types i e tp (nIdTable (p.maps.tp.tpN.getD tp []) n))
        (Spec.full (Spec.turn (p.ylmG (sqrt (r2 e.2)) e.2) e.2 x y) l m)).sum := by
  obtain ⟨a, ha, e1, e2, e3⟩ := kIdx_get p hcond hn hl h1 h2 htp
  unfold arrT
  refine sum_map_congr _ _ _ ?_
  intro e _
  have h := nId_of_get p ha
  rw [e1, e3] at h
  have := ext_full p (phiE p sqrt types i e) (Spec.turn (p.ylmG (sqrt (r2 e.2)) e.2) e.2 x y) ha e2
  rw [e3, h] at this
  rw [← this]
  congr 2
  funext b
  exact gT_phi p sqrt types x y i e b

variable {s : ℕ → ℤ → K} (hs : Spec.Ladder s)

theorem arr_axis (i : ℕ) (row : List (ℕ × Vec K)) (h : ∀ e ∈ row, ROK p sqrt s e.2) {n l tp : ℕ} {m : ℤ}
    (hn : n < p.nFn) (hl : l ≤ p.maxl) (h1 : -(l : ℤ) ≤ m) (h2 : m ≤ l) (htp : PairOK p n tp (types i)) :
    arrT p sqrt types 0 1 i row (kIdx p n (Spec.lmIdx l m) tp (types i)) =
      ⟨0, (m : K)⟩ * arrM p sqrt types i row (kIdx p n (Spec.lmIdx l m) tp (types i)) := by
  rw [arrM_at p sqrt types hcond i row hn hl h1 h2 htp, arrT_at p sqrt types hcond 0 1 i row hn hl h1 h2 htp,
    ← List.sum_map_mul_left]
  refine sum_map_congr _ _ _ ?_
  intro e he
  rw [(h e he).1.axis l hl m h1 h2]
  ext <;> simp <;> ring

include hs

theorem arr_raise (i : ℕ) (row : List (ℕ × Vec K)) (h : ∀ e ∈ row, ROK p sqrt s e.2) {n l tp : ℕ} {m : ℤ}
    (hn : n < p.nFn) (hl : l ≤ p.maxl) (h1 : -(l : ℤ) ≤ m) (h2 : m ≤ l) (htp : PairOK p n tp (types i)) :
    arrT p sqrt types 1 2 i row (kIdx p n (Spec.lmIdx l m) tp (types i)) +
      ⟨0, 1⟩ * arrT p sqrt types 2 0 i row (kIdx p n (Spec.lmIdx l m) tp (types i)) =
      ⟨0, s l m⟩ * arrM p sqrt types i row (kIdx p n (Spec.lmIdx l (m + 1)) tp (types i)) := by
  rw [arrT_at p sqrt types hcond 1 2 i row hn hl h1 h2 htp, arrT_at p sqrt types hcond 2 0 i row hn hl h1 h2 htp]
  rw [← List.sum_map_mul_left, ← List.sum_map_add]
  have hrow : ∀ e ∈ row, ∀ c : K, Cx.smul c (Spec.full (Spec.turn (p.ylmG (sqrt (r2 e.2)) e.2) e.2 1 2) l m) +
      ⟨0, 1⟩ * Cx.smul c (Spec.full (Spec.turn (p.ylmG (sqrt (r2 e.2)) e.2) e.2 2 0) l m) =
      ⟨0, s l m⟩ * Cx.smul c (Spec.full (p.ylmV (sqrt (r2 e.2)) e.2) l (m + 1)) := by
    intro e he c
    have := (h e he).1.raise l hl m h1 h2
    have : Cx.smul c (Spec.full (Spec.turn (p.ylmG (sqrt (r2 e.2)) e.2) e.2 1 2) l m +
      ⟨0, 1⟩ * Spec.full (Spec.turn (p.ylmG (sqrt (r2 e.2)) e.2) e.2 2 0) l m) =
      Cx.smul c (⟨0, s l m⟩ * Spec.full (p.ylmV (sqrt (r2 e.2)) e.2) l (m + 1)) := by rw [this]
    have e1 := congrArg Cx.re this
    have e2 := congrArg Cx.im this
    simp only [Cx.add_re, Cx.mul_re, Cx.smul_re, Cx.smul_im, Cx.add_im, Cx.mul_im] at e1 e2
    ext
    · simp only [Cx.add_re, Cx.mul_re, Cx.smul_re, Cx.smul_im]
      linear_combination e1
    · simp only [Cx.add_im, Cx.mul_im, Cx.smul_re, Cx.smul_im]
      linear_combination e2
  by_cases hm : m = l
  · subst hm
    rw [hs.top, cx_zero_mul]
    refine (sum_map_congr _ _ (fun _ => (0 : Cx K)) ?_).trans (by simp)
    intro e he
    rw [hrow e he, hs.top, cx_zero_mul]
  · rw [arrM_at p sqrt types hcond i row hn hl (by omega) (by omega) htp, ← List.sum_map_mul_left]
    refine sum_map_congr _ _ _ ?_
    intro e he
    exact hrow e he _

theorem arr_lower (i : ℕ) (row : List (ℕ × Vec K)) (h : ∀ e ∈ row, ROK p sqrt s e.2) {n l tp : ℕ} {m : ℤ}
    (hn : n < p.nFn) (hl : l ≤ p.maxl) (h1 : -(l : ℤ) ≤ m) (h2 : m ≤ l) (htp : PairOK p n tp (types i)) :
    arrT p sqrt types 1 2 i row (kIdx p n (Spec.lmIdx l m) tp (types i)) +
      ⟨0, -1⟩ * arrT p sqrt types 2 0 i row (kIdx p n (Spec.lmIdx l m) tp (types i)) =
      ⟨0, s l (m - 1)⟩ * arrM p sqrt types i row (kIdx p n (Spec.lmIdx l (m - 1)) tp (types i)) := by
  rw [arrT_at p sqrt types hcond 1 2 i row hn hl h1 h2 htp, arrT_at p sqrt types hcond 2 0 i row hn hl h1 h2 htp]
  rw [← List.sum_map_mul_left, ← List.sum_map_add]
  have hrow : ∀ e ∈ row, ∀ c : K, Cx.smul c (Spec.full (Spec.turn (p.ylmG (sqrt (r2 e.2)) e.2) e.2 1 2) l m) +
      ⟨0, -1⟩ * Cx.smul c (Spec.full (Spec.turn (p.ylmG (sqrt (r2 e.2)) e.2) e.2 2 0) l m) =
      ⟨0, s l (m - 1)⟩ * Cx.smul c (Spec.full (p.ylmV (sqrt (r2 e.2)) e.2) l (m - 1)) := by
    intro e he c
    have := lower_of_raise hs (h e he).1 (h e he).2.1 (h e he).2.2 l hl m h1 h2
    have : Cx.smul c (Spec.full (Spec.turn (p.ylmG (sqrt (r2 e.2)) e.2) e.2 1 2) l m -
      ⟨0, 1⟩ * Spec.full (Spec.turn (p.ylmG (sqrt (r2 e.2)) e.2) e.2 2 0) l m) =
      Cx.smul c (⟨0, s l (m - 1)⟩ * Spec.full (p.ylmV (sqrt (r2 e.2)) e.2) l (m - 1)) := by rw [this]
    have e1 := congrArg Cx.re this
    have e2 := congrArg Cx.im this
    simp only [Cx.sub_re, Cx.mul_re, Cx.smul_re, Cx.smul_im, Cx.sub_im, Cx.mul_im] at e1 e2
    ext
    · simp only [Cx.add_re, Cx.mul_re, Cx.smul_re, Cx.smul_im]
      linear_combination e1
    · simp only [Cx.add_im, Cx.mul_im, Cx.smul_re, Cx.smul_im]
      linear_combination e2
  by_cases hm : m = -l
  · have h0 : s l (m - 1) = 0 := by
      rw [show m - 1 = -(l : ℤ) - 1 by omega, hs.flip, hs.top]
    rw [h0, cx_zero_mul]
    refine (sum_map_congr _ _ (fun _ => (0 : Cx K)) ?_).trans (by simp)
    intro e he
    rw [hrow e he, h0, cx_zero_mul]
  · rw [arrM_at p sqrt types hcond i row hn hl (by omega) (by omega) htp, ← List.sum_map_mul_left]
    refine sum_map_congr _ _ _ ?_
    intro e he
    exact hrow e he _

end Arr

/-! ## Rows -/

/-- The factors of a product as functions of `m`. -/
def rowFuns (arr : ℕ → Cx K) (n t : ℕ) (ls tps : List ℕ) : List (ℤ → Cx K) :=
  List.zipWith (fun l tp m => arr (kIdx p n (Spec.lmIdx l m) tp t)) ls tps

theorem rowFuns_prod (arr : ℕ → Cx K) (n t : ℕ) : ∀ (ls : List ℕ) (ms : List ℤ) (tps : List ℕ),
    (List.zipWith (fun (a : ℤ → Cx K) m => a m) (rowFuns p arr n t ls tps) ms).prod =
      ((kRow p n t ls ms tps).map arr).prod
  | [], _, _ => by simp [rowFuns, kRow]
  | _ :: _, [], _ => by simp [rowFuns, kRow]
  | _ :: _, _ :: _, [] => by simp [rowFuns, kRow]
  | l :: ls, m :: ms, tp :: tps => by
    have := rowFuns_prod arr n t ls ms tps
    unfold rowFuns kRow at this ⊢
    simp only [List.zipWith_cons_cons, List.prod_cons, List.zip_cons_cons, List.map_cons] at this ⊢
    rw [this]

theorem leib_raise (s : ℕ → ℤ → K) (arr w : ℕ → Cx K) (n t : ℕ) :
    ∀ (ls : List ℕ) (ms : List ℤ) (tps : List ℕ), ms.length = ls.length → tps.length = ls.length →
    (∀ l ∈ ls, l ≤ p.maxl) → (∀ e ∈ ls.zip ms, -(e.1 : ℤ) ≤ e.2 ∧ e.2 ≤ e.1) →
    (∀ tp ∈ tps, PairOK p n tp t) →
    (∀ (l tp : ℕ) (m : ℤ), l ≤ p.maxl → -(l : ℤ) ≤ m → m ≤ l → PairOK p n tp t →
      w (kIdx p n (Spec.lmIdx l m) tp t) = ⟨0, s l m⟩ * arr (kIdx p n (Spec.lmIdx l (m + 1)) tp t)) →
    leib arr w (kRow p n t ls ms tps) = ⟨0, 1⟩ * Spec.raiseProd s ls ms (rowFuns p arr n t ls tps)
  | [], [], [], _, _, _, _, _, _ => by simp [kRow, leib, Spec.raiseProd]
  | l :: ls, m :: ms, tp :: tps, h1, h2, h3, h4, h5, hw => by
    have ih := leib_raise s arr w n t ls ms tps (by simpa using h1) (by simpa using h2)
      (fun l hl => h3 l (by simp [hl])) (fun e he => h4 e (by simp [he])) (fun q hq => h5 q (by simp [hq])) hw
    obtain ⟨hm1, hm2⟩ := h4 (l, m) (by simp)
    have hk : kRow p n t (l :: ls) (m :: ms) (tp :: tps) =
      kIdx p n (Spec.lmIdx l m) tp t :: kRow p n t ls ms tps := rfl
    have hf : rowFuns p arr n t (l :: ls) (tp :: tps) =
      (fun m => arr (kIdx p n (Spec.lmIdx l m) tp t)) :: rowFuns p arr n t ls tps := rfl
    rw [hk, hf, leib, Spec.raiseProd, ih, hw l tp m (h3 l (by simp)) hm1 hm2 (h5 tp (by simp)),
      rowFuns_prod]
    generalize ((kRow p n t ls ms tps).map arr).prod = P
    have : ∀ z : Cx K, (⟨0, s l m⟩ : Cx K) * z = ⟨0, 1⟩ * Cx.smul (s l m) z := by
      intro z; ext <;> simp
    rw [this]
    ring
  | [], _ :: _, _, h1, _, _, _, _, _ => by simp at h1
  | _ :: _, [], _, h1, _, _, _, _, _ => by simp at h1
  | [], _, _ :: _, _, h2, _, _, _, _ => by simp at h2
  | _ :: _, _, [], _, h2, _, _, _, _ => by simp at h2

/-- The functions of `-m`. -/
def flipFuns (as : List (ℤ → Cx K)) : List (ℤ → Cx K) := as.map fun a m => a (-m)

theorem leib_lower (s : ℕ → ℤ → K) (hs : Spec.Ladder s) (arr w : ℕ → Cx K) (n t : ℕ) :
    ∀ (ls : List ℕ) (ms : List ℤ) (tps : List ℕ), ms.length = ls.length → tps.length = ls.length →
    (∀ l ∈ ls, l ≤ p.maxl) → (∀ e ∈ ls.zip ms, -(e.1 : ℤ) ≤ e.2 ∧ e.2 ≤ e.1) →
    (∀ tp ∈ tps, PairOK p n tp t) →
    (∀ (l tp : ℕ) (m : ℤ), l ≤ p.maxl → -(l : ℤ) ≤ m → m ≤ l → PairOK p n tp t →
      w (kIdx p n (Spec.lmIdx l m) tp t) = ⟨0, s l (m - 1)⟩ * arr (kIdx p n (Spec.lmIdx l (m - 1)) tp t)) →
    leib arr w (kRow p n t ls ms tps) =
      ⟨0, 1⟩ * Spec.raiseProd s ls (ms.map fun m => -m) (flipFuns (rowFuns p arr n t ls tps))
  | [], [], [], _, _, _, _, _, _ => by simp [kRow, leib, Spec.raiseProd]
  | l :: ls, m :: ms, tp :: tps, h1, h2, h3, h4, h5, hw => by
    have ih := leib_lower s hs arr w n t ls ms tps (by simpa using h1) (by simpa using h2)
      (fun l hl => h3 l (by simp [hl])) (fun e he => h4 e (by simp [he])) (fun q hq => h5 q (by simp [hq])) hw
    obtain ⟨hm1, hm2⟩ := h4 (l, m) (by simp)
    have hk : kRow p n t (l :: ls) (m :: ms) (tp :: tps) =
      kIdx p n (Spec.lmIdx l m) tp t :: kRow p n t ls ms tps := rfl
    have hf : flipFuns (rowFuns p arr n t (l :: ls) (tp :: tps)) =
      (fun m => arr (kIdx p n (Spec.lmIdx l (-m)) tp t)) :: flipFuns (rowFuns p arr n t ls tps) := rfl
    have hp : ∀ (as : List (ℤ → Cx K)) (ms : List ℤ),
        (List.zipWith (fun (a : ℤ → Cx K) m => a m) (flipFuns as) (ms.map fun m => -m)) =
        List.zipWith (fun (a : ℤ → Cx K) m => a m) as ms := by
      intro as ms
      unfold flipFuns
      rw [List.zipWith_map]
      simp
    rw [hk, hf, List.map_cons, leib, Spec.raiseProd, ih,
      hw l tp m (h3 l (by simp)) hm1 hm2 (h5 tp (by simp)), hp, rowFuns_prod]
    generalize ((kRow p n t ls ms tps).map arr).prod = P
    have : ∀ z : Cx K, (⟨0, s l (m - 1)⟩ : Cx K) * z = ⟨0, 1⟩ * Cx.smul (s l (-m)) z := by
      intro z
      rw [show -m = -(m - 1) - 1 by ring, hs.flip]
      ext <;> simp
    rw [this, show -(-m + 1) = m - 1 by ring, neg_neg]
    ring
  | [], _ :: _, _, h1, _, _, _, _, _ => by simp at h1
  | _ :: _, [], _, h1, _, _, _, _, _ => by simp at h1
  | [], _, _ :: _, _, h2, _, _, _, _ => by simp at h2
  | _ :: _, _, [], _, h2, _, _, _, _ => by simp at h2

theorem raise_zero {s : ℕ → ℤ → K} {ls : List ℕ} {rows : List (List ℤ × K)} (h : Spec.Invariant s ls rows)
    (as : List (ℤ → Cx K)) (hlen : as.length = ls.length) :
    (rows.map fun r => algebraMap K (Cx K) r.2 * (⟨0, 1⟩ * Spec.raiseProd s ls r.1 as)).sum = 0 := by
  have h1 := h as hlen
  have : (rows.map fun r => algebraMap K (Cx K) r.2 * (⟨0, 1⟩ * Spec.raiseProd s ls r.1 as)).sum =
      ⟨0, 1⟩ * (rows.map fun r => Cx.smul r.2 (Spec.raiseProd s ls r.1 as)).sum := by
    rw [← List.sum_map_mul_left]
    refine sum_map_congr _ _ _ ?_
    intro r _
    rw [smul_eq_mul]
    ring
  rw [this, h1, mul_zero]

section Final
variable (hcond : ∀ i j, (p.cond i j).Nodup) {s : ℕ → ℤ → K} (hs : Spec.Ladder s)
  (htab : Spec.RotTable s p.maxl p.lComb p.lmArray p.lmCoeffs)
include hcond hs htab

/-- The rotations of a feature vanish. -/
theorem featC_rot [IsStrictOrderedRing K] (i : ℕ) (row : List (ℕ × Vec K)) (h : ∀ e ∈ row, ROK p sqrt s e.2)
    (f : ℕ) :
    featC (p.features (types i)) (arrM p sqrt types i row) (arrT p sqrt types 0 1 i row) f = 0 ∧
    featC (p.features (types i)) (arrM p sqrt types i row) (arrT p sqrt types 1 2 i row) f = 0 ∧
    featC (p.features (types i)) (arrM p sqrt types i row) (arrT p sqrt types 2 0 i row) f = 0 := by
  have main : featC (p.features (types i)) (arrM p sqrt types i row) (arrT p sqrt types 0 1 i row) f = 0 ∧
      featC (p.features (types i)) (arrM p sqrt types i row)
        (fun k => arrT p sqrt types 1 2 i row k + ⟨0, 1⟩ * arrT p sqrt types 2 0 i row k) f = 0 ∧
      featC (p.features (types i)) (arrM p sqrt types i row)
        (fun k => arrT p sqrt types 1 2 i row k + ⟨0, -1⟩ * arrT p sqrt types 2 0 i row k) f = 0 := by
    unfold featC GtParams.features
    rcases gt_features_getD p hcond htab.table id (types i) f with h0 | ⟨lin, hlin, -, h0⟩
    · rw [h0]; simp
    rw [h0]
    obtain ⟨h1, h2⟩ := (mem_linFor p _ lin).1 hlin
    obtain ⟨ls, tps, hL⟩ := linear_mem p lin h1
    obtain ⟨ht, hpair⟩ := lin_pairs p hL h2
    obtain ⟨rows, ⟨hrows, hinv⟩, g2, g3⟩ := htab _ _ hL.hls
    have hfeat : p.feature id lin (types i) = rows.map fun r =>
        (r.2, (globalIds p.maps.glob lin.n (List.zipWith Spec.lmIdx ls r.1) tps).map
          fun g => p.maps.loc.iloc g (types i)) := by
      unfold GtParams.feature
      simp only [List.getD_eq_getElem?_getD, g2, g3, hL.htps, Option.getD_some]
      have := zip_rows rows (fun ms => List.zipWith Spec.lmIdx ls ms)
        (fun x => (id (globalIds p.maps.glob lin.n x tps)).map fun g => p.maps.loc.iloc g (types i))
      simp only [id] at this ⊢
      rw [← this]
      simp only [List.getD_eq_getElem?_getD]
    have hperm : ∀ (r : List ℤ × K), ((globalIds p.maps.glob lin.n (List.zipWith Spec.lmIdx ls r.1) tps).map
        fun g => p.maps.loc.iloc g (types i)).Perm (kRow p lin.n (types i) ls r.1 tps) := by
      intro r
      rw [kRow_gRow]
      exact (globalIds_perm p lin.n ls r.1 tps).map _
    have hfl : (rowFuns p (arrM p sqrt types i row) lin.n (types i) ls tps).length = ls.length := by
      unfold rowFuns
      rw [List.length_zipWith, hL.len, min_self]
    rw [hfeat]
    simp only [List.map_map, Function.comp_def]
    refine ⟨?_, ?_, ?_⟩
    · refine (sum_map_congr _ _ (fun _ => (0 : Cx K)) ?_).trans (by simp)
      intro r hr
      rw [leib_perm _ _ (hperm r)]
      obtain ⟨i1, i2, i3, i4, -⟩ := row_facts p hcond (t := types i) hL.n ls r.1 tps (hrows.len r hr)
        hL.len hrows.lmax (hrows.range r hr) hpair
      have hw : ∀ k ∈ kRow p lin.n (types i) ls r.1 tps, arrT p sqrt types 0 1 i row k =
          ⟨0, (p.mOf (types i) k : K)⟩ * arrM p sqrt types i row k := by
        intro k hk
        unfold kRow at hk
        rw [List.mem_map] at hk
        obtain ⟨e, he, rfl⟩ := hk
        obtain ⟨j, hj⟩ := List.mem_iff_getElem?.1 he
        rw [List.getElem?_zip_eq_some] at hj
        obtain ⟨hj1, hj2⟩ := hj
        rw [List.getElem?_zipWith_eq_some] at hj1
        obtain ⟨l, m, hl, hm, hj1⟩ := hj1
        obtain ⟨b1, b2⟩ := hrows.range r hr (l, m) (List.mem_iff_getElem?.2
          ⟨j, List.getElem?_zip_eq_some.2 ⟨hl, hm⟩⟩)
        have hll := hrows.lmax l (List.mem_of_getElem? hl)
        have hpp := hpair e.2 (List.mem_of_getElem? hj2)
        obtain ⟨a, ha, f1, f2, f3⟩ := kIdx_get p hcond hL.n hll b1 b2 hpp
        rw [← hj1, mOf_of_get p ha, f2, lmAttr_m]
        exact arr_axis p sqrt types hcond i row h hL.n hll b1 b2 hpp
      rw [leib_congr (fun k _ => rfl) hw, leib_factor]
      have hz : ((kRow p lin.n (types i) ls r.1 tps).map fun k => (⟨0, (p.mOf (types i) k : K)⟩ : Cx K)).sum
          = 0 := by
        have hzz : ∀ ms : List ℤ, (ms.map fun (m : ℤ) => (⟨0, (m : K)⟩ : Cx K)).sum = ⟨0, ((ms.sum : ℤ) : K)⟩ := by
          intro ms
          induction ms with
          | nil => simp; rfl
          | cons x l ih => rw [List.map_cons, List.sum_cons, ih, List.sum_cons]; ext <;> simp
        have := hzz ((kRow p lin.n (types i) ls r.1 tps).map (p.mOf (types i)))
        rw [List.map_map] at this
        refine this.trans ?_
        rw [i2, hrows.sum r hr]
        simp; rfl
      rw [hz, zero_mul, mul_zero]
    · have := raise_zero hinv (rowFuns p (arrM p sqrt types i row) lin.n (types i) ls tps) hfl
      rw [← this]
      refine sum_map_congr _ _ _ ?_
      intro r hr
      rw [leib_perm _ _ (hperm r), leib_raise p s _ _ lin.n (types i) ls r.1 tps (hrows.len r hr) hL.len
        hrows.lmax (hrows.range r hr) hpair]
      intro l tp m hl b1 b2 hpp
      exact arr_raise p sqrt types hcond hs i row h hL.n hl b1 b2 hpp
    · have := raise_zero hinv (flipFuns (rowFuns p (arrM p sqrt types i row) lin.n (types i) ls tps))
        (by unfold flipFuns; rw [List.length_map, hfl])
      rw [← this, ← (hrows.closed.map fun r : List ℤ × K => algebraMap K (Cx K) r.2 * (⟨0, 1⟩ *
        Spec.raiseProd s ls r.1 (flipFuns (rowFuns p (arrM p sqrt types i row) lin.n (types i) ls tps)))).sum_eq,
        List.map_map]
      refine sum_map_congr _ _ _ ?_
      intro r hr
      rw [leib_perm _ _ (hperm r), leib_lower p s hs _ _ lin.n (types i) ls r.1 tps (hrows.len r hr) hL.len
        hrows.lmax (hrows.range r hr) hpair]
      · rfl
      intro l tp m hl b1 b2 hpp
      exact arr_lower p sqrt types hcond hs i row h hL.n hl b1 b2 hpp
  obtain ⟨m1, m2, m3⟩ := main
  refine ⟨m1, ?_⟩
  rw [featC_add, featC_mul] at m2 m3
  generalize featC (p.features (types i)) (arrM p sqrt types i row) (arrT p sqrt types 1 2 i row) f = A at *
  generalize featC (p.features (types i)) (arrM p sqrt types i row) (arrT p sqrt types 2 0 i row) f = B at *
  have a1 := congrArg Cx.re m2
  have a2 := congrArg Cx.im m2
  have a3 := congrArg Cx.re m3
  have a4 := congrArg Cx.im m3
  simp only [Cx.add_re, Cx.mul_re, Cx.add_im, Cx.mul_im, Cx.zero_re, Cx.zero_im, zero_mul, one_mul,
    zero_sub, neg_mul, sub_neg_eq_add, zero_add] at a1 a2 a3 a4
  constructor <;> ext <;> simp only [Cx.zero_re, Cx.zero_im] <;> linarith

/-- The virial of every feature is symmetric. -/
theorem DS_symm [IsStrictOrderedRing K] (i : ℕ) (row : List (ℕ × Vec K)) (h : ∀ e ∈ row, ROK p sqrt s e.2)
    (a b : Fin 3) (f : ℕ) : DS p sqrt types i row a b f = DS p sqrt types i row b a f := by
  have key : ∀ a b, featC (p.features (types i)) (arrM p sqrt types i row)
      (arrT p sqrt types a b i row) f = 0 → DS p sqrt types i row a b f = DS p sqrt types i row b a f := by
    intro a b h0
    have h1 : featD (p.features (types i)) (arrM p sqrt types i row) (arrT p sqrt types a b i row) f = 0 := by
      rw [featD_re, h0]; rfl
    unfold arrT at h1
    rw [featD_sum] at h1
    have h2 : ∀ e, featD (p.features (types i)) (arrM p sqrt types i row)
        (extK p (types i) (atK p (types i) (gT p sqrt types a b i e))) f =
        e.2 a * DM p sqrt types i row b e f - e.2 b * DM p sqrt types i row a e f := by
      intro e
      have hx : ∀ k, extK p (types i) (atK p (types i) (gT p sqrt types a b i e)) k =
          algebraMap K (Cx K) (e.2 a) * extK p (types i) (atK p (types i) (gV p sqrt types b i e)) k +
          algebraMap K (Cx K) (-e.2 b) * extK p (types i) (atK p (types i) (gV p sqrt types a i e)) k := by
        intro k
        have hat : ∀ k, atK p (types i) (gT p sqrt types a b i e) k =
            algebraMap K (Cx K) (e.2 a) * atK p (types i) (gV p sqrt types b i e) k +
            algebraMap K (Cx K) (-e.2 b) * atK p (types i) (gV p sqrt types a i e) k := by
          intro k
          unfold atK gT
          cases (p.attrs (types i))[k]? with
          | none => simp
          | some c =>
            simp only [Option.map_some, Option.getD_some]
            rw [smul_eq_mul, smul_eq_mul, map_neg]
            ring
        unfold extK
        split_ifs with hm
        · exact hat k
        · rw [hat]
          ext <;> simp only [Cx.mul_re, Cx.mul_im, Cx.add_re, Cx.add_im, Cx.conj_re, Cx.conj_im,
            algebraMap_cx] <;> ring
      have hfun : (extK p (types i) (atK p (types i) (gT p sqrt types a b i e))) = fun k =>
          algebraMap K (Cx K) (e.2 a) * extK p (types i) (atK p (types i) (gV p sqrt types b i e)) k +
          algebraMap K (Cx K) (-e.2 b) * extK p (types i) (atK p (types i) (gV p sqrt types a i e)) k :=
        funext hx
      rw [hfun, featD_re, featC_add, Cx.add_re, ← featD_re, ← featD_re, featD_mul, featD_mul]
      unfold DM
      ring
    unfold DS
    have h3 : (row.map fun e => e.2 a * DM p sqrt types i row b e f - e.2 b * DM p sqrt types i row a e f).sum
        = 0 := by
      rw [← h1]
      exact sum_map_congr _ _ _ fun e _ => (h2 e).symm
    have h4 : (row.map fun e => -e.2 b * DM p sqrt types i row a e f).sum -
        (row.map fun e => -e.2 a * DM p sqrt types i row b e f).sum = 0 := by
      have h5 : (row.map fun e => -e.2 a * DM p sqrt types i row b e f).sum =
          -1 * (row.map fun e => e.2 a * DM p sqrt types i row b e f).sum := by
        rw [← List.sum_map_mul_left]
        exact sum_map_congr _ _ _ fun e _ => by ring
      rw [← h3, h5, sub_eq_add_neg, neg_mul, neg_neg, one_mul, ← List.sum_map_add]
      exact sum_map_congr _ _ _ fun e _ => by ring
    exact sub_eq_zero.1 h4
  obtain ⟨r1, r2', r3⟩ := featC_rot p sqrt types hcond hs htab i row h f
  have k1 := key 0 1 r1
  have k2 := key 1 2 r2'
  have k3 := key 2 0 r3
  fin_cases a <;> fin_cases b <;> first | rfl | exact k1 | exact k1.symm | exact k2 | exact k2.symm | exact k3 | exact k3.symm

end Final

end Verif.Mlp
