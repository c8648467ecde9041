import Verif.Lemmas.MlpGtFeat

namespace Verif.Mlp
open Verif
open Verif.Neighbor (Vec Csr r2 mkCsr)

variable {K : Type} [Field K] [LinearOrder K]

/-! ## Extension to the conjugate channels -/

/-- The array with the given values for `m ≤ 0` and the conjugate values for `m > 0`. -/
def extK (p : GtParams K) (t : ℕ) (w : ℕ → Cx K) (k : ℕ) : Cx K :=
  if p.mOf t k ≤ 0 then w k
  else algebraMap K (Cx K) (ccOf (p.mOf t k)) * Cx.conj (w (p.kap t k))

theorem extK_conjSym (p : GtParams K) (t : ℕ) (w : ℕ → Cx K)
    (h : ∀ k < (p.attrs t).length, p.mOf t k = 0 → (w k).im = 0) :
    ConjSym (p.attrs t).length (p.kap t) (p.mOf t) (extK p t w) := by
  intro k hk
  have hc := gt_chanSym p t
  unfold extK
  rw [hc.neg k hk]
  rcases lt_trichotomy (p.mOf t k) 0 with hm | hm | hm
  · rw [if_neg (by omega), if_pos (by omega), ccOf_neg, hc.inv k hk]
  · rw [hc.zero k hk hm, hm, if_pos (by omega), if_pos (le_refl _), ccOf_zero, map_one, one_mul]
    ext
    · rfl
    · rw [Cx.conj_im, h k hk hm, neg_zero]
  · rw [if_pos (by omega), if_neg (by omega), conj_algebraMap, ← mul_assoc, ← map_mul, ccOf_mul_self,
      map_one, one_mul]
    ext
    · rfl
    · simp

theorem extK_congr (p : GtParams K) (t : ℕ) {w w' : ℕ → Cx K}
    (h : ∀ k < (p.attrs t).length, p.mOf t k ≤ 0 → w k = w' k) :
    ∀ k < (p.attrs t).length, extK p t w k = extK p t w' k := by
  intro k hk
  have hc := gt_chanSym p t
  unfold extK
  split_ifs with hm
  · exact h k hk hm
  · rw [h _ (hc.lt k hk) (by rw [hc.neg k hk]; omega)]

theorem extK_sum (p : GtParams K) (t : ℕ) {β : Type} (l : List β) (w : β → ℕ → Cx K) (k : ℕ) :
    extK p t (fun k => (l.map fun b => w b k).sum) k = (l.map fun b => extK p t (w b) k).sum := by
  unfold extK
  split_ifs with hm
  · rfl
  · rw [← conjHom_apply, map_list_sum, List.map_map, ← List.sum_map_mul_left]
    rfl

theorem extK_scale (p : GtParams K) (t : ℕ) (ε : ℕ → K)
    (hε : ∀ k < (p.attrs t).length, ε (p.kap t k) = ε k) (w : ℕ → Cx K) :
    ∀ k < (p.attrs t).length, extK p t (fun k => algebraMap K (Cx K) (ε k) * w k) k =
      algebraMap K (Cx K) (ε k) * extK p t w k := by
  intro k hk
  unfold extK
  split_ifs with hm
  · rfl
  · rw [conj_algebraMap, hε k hk]; ring

/-! ## Values of the entries -/

variable (p : GtParams K) (sqrt : K → K) (types : ℕ → ℕ)

/-- The pair of types of an entry. -/
def tpE (i : ℕ) (e : ℕ × Vec K) : ℕ := p.maps.tp.typePairs (types i) (types e.1)

/-- `fn` of an entry for one attribute. -/
def fnE (i : ℕ) (e : ℕ × Vec K) (b : NlmAttr) : K :=
  fnAt p.rad (p.maps.tp.tpN.getD (tpE p types i e) []) (sqrt (r2 e.2)) b.nId

/-- `fn_d` of an entry for one attribute. -/
def fnDE (i : ℕ) (e : ℕ × Vec K) (b : NlmAttr) : K :=
  fnAt p.radD (p.maps.tp.tpN.getD (tpE p types i e) []) (sqrt (r2 e.2)) b.nId

/-- The entry contributes to the attribute. -/
def ActE (i : ℕ) (e : ℕ × Vec K) (b : NlmAttr) : Prop :=
  ¬p.cutoff ≤ sqrt (r2 e.2) ∧ tpE p types i e = b.tp ∧ ¬fnE p sqrt types i e b < p.tol

instance (i : ℕ) (e : ℕ × Vec K) (b : NlmAttr) : Decidable (ActE p sqrt types i e b) := by
  unfold ActE; infer_instance

/-- Contribution of an entry to `anlmtp`. -/
def gW (i : ℕ) (e : ℕ × Vec K) (b : NlmAttr) : Cx K :=
  if ActE p sqrt types i e b then
    Cx.smul (fnE p sqrt types i e b) (p.ylmV (sqrt (r2 e.2)) e.2 b.lm.ylmKey.toNat) else 0

/-- Derivative of the contribution. -/
def gV (x : Fin 3) (i : ℕ) (e : ℕ × Vec K) (b : NlmAttr) : Cx K :=
  if ActE p sqrt types i e b then
    Cx.smul (e.2 x) (Cx.smul (1 / sqrt (r2 e.2)) (Cx.smul (fnDE p sqrt types i e b)
      (p.ylmV (sqrt (r2 e.2)) e.2 b.lm.ylmKey.toNat))) +
    Cx.smul (fnE p sqrt types i e b) (p.ylmG (sqrt (r2 e.2)) e.2 b.lm.ylmKey.toNat x) else 0

/-- A value for every channel. -/
def atK (t : ℕ) (g : NlmAttr → Cx K) (k : ℕ) : Cx K := ((p.attrs t)[k]?.map g).getD 0

theorem atK_of_get {t k : ℕ} {a : NlmAttr} (h : (p.attrs t)[k]? = some a) (g : NlmAttr → Cx K) :
    atK p t g k = g a := by unfold atK; rw [h]; rfl

/-- One projection of the sums over the neighbours. -/
theorem anlmSums_proj (i : ℕ) (row : List (ℕ × Vec K)) (X : NlmDeriv K → Cx K)
    (g : ℕ × Vec K → NlmAttr → Cx K) (k : ℕ) (h0 : X ⟨fun _ => 0, fun _ _ => 0, fun _ => 0⟩ = 0)
    (hg0 : ∀ e b, ¬ActE p sqrt types i e b → g e b = 0)
    (hX : ∀ s e b, ActE p sqrt types i e b →
      X (anlmStep p i e.1 (sqrt (r2 e.2)) e.2 (fnAt p.rad (p.maps.tp.tpN.getD (tpE p types i e) [])
        (sqrt (r2 e.2))) (fnAt p.radD (p.maps.tp.tpN.getD (tpE p types i e) []) (sqrt (r2 e.2))) s b) =
        X s + if k = b.iloc then g e b else 0) :
    X (anlmSums p sqrt types i row) =
      (row.map fun e => ((p.noconj (types i)).map fun b => if k = b.iloc then g e b else 0).sum).sum := by
  unfold anlmSums
  rw [foldl_proj (f := X)
    (g := fun e => ((p.noconj (types i)).map fun b => if k = b.iloc then g e b else 0).sum), h0, zero_add]
  intro s e _
  by_cases hcut : p.cutoff ≤ sqrt (r2 e.2)
  · simp only [ge_iff_le, hcut, if_true]
    have : ∀ b ∈ p.noconj (types i), (if k = b.iloc then g e b else 0) = 0 := by
      intro b _
      rw [hg0 e b (fun h => h.1 hcut)]
      simp
    rw [sum_map_congr _ _ (fun _ => 0) this]
    simp
  · simp only [ge_iff_le, hcut, if_false]
    rw [foldl_proj (f := X) (g := fun b => if k = b.iloc then g e b else 0)]
    intro s b _
    by_cases ha : ActE p sqrt types i e b
    · rw [if_neg (by
        rintro (h | h)
        · exact h ha.2.1
        · exact ha.2.2 h)]
      exact hX s e b ha
    · rw [if_pos (by
        by_contra hcon
        push Not at hcon
        exact ha ⟨hcut, hcon.1, not_lt.2 hcon.2⟩), hg0 e b ha]
      simp

theorem anlmSums_a (i : ℕ) (row : List (ℕ × Vec K)) (k : ℕ) :
    (anlmSums p sqrt types i row).a k =
      (row.map fun e => ((p.noconj (types i)).map fun b => if k = b.iloc then gW p sqrt types i e b
        else 0).sum).sum := by
  refine anlmSums_proj p sqrt types i row (fun s => s.a k) (gW p sqrt types i) k rfl ?_ ?_
  · intro e b h; unfold gW; rw [if_neg h]
  · intro s e b h
    unfold gW
    rw [if_pos h]
    simp only [anlmStep, addAt_apply]
    rfl

/-- `+1` for the central atom, `-1` for the neighbour. -/
def sgnAt (q i j : ℕ) : K := (if q = i then 1 else 0) - (if q = j then 1 else 0)

theorem anlmSums_df (i : ℕ) (row : List (ℕ × Vec K)) (k q : ℕ) (x : Fin 3) :
    (anlmSums p sqrt types i row).df k q x =
      (row.map fun e => ((p.noconj (types i)).map fun b => if k = b.iloc then
        algebraMap K (Cx K) (sgnAt q i e.1) * gV p sqrt types x i e b else 0).sum).sum := by
  refine anlmSums_proj p sqrt types i row (fun s => s.df k q x)
    (fun e b => algebraMap K (Cx K) (sgnAt q i e.1) * gV p sqrt types x i e b) k rfl ?_ ?_
  · intro e b h; unfold gV; rw [if_neg h, mul_zero]
  · intro s e b h
    unfold gV
    rw [if_pos h]
    simp only [anlmStep]
    by_cases hk : k = b.iloc
    · rw [if_pos hk, hk, put_same, put_same, addAt_apply, addAt_apply]
      unfold sgnAt
      rw [map_sub, sub_mul]
      by_cases h1 : q = i
      · by_cases h2 : q = e.1
        · simp only [if_pos h1, if_pos h2, Pi.add_apply, Pi.neg_apply, map_one, one_mul, add_assoc,
            sub_self, fnE, fnDE, tpE]
          ring
        · simp only [if_pos h1, if_neg h2, Pi.add_apply, Pi.zero_apply, map_one, map_zero, one_mul,
            zero_mul, add_zero, sub_zero, fnE, fnDE, tpE]
      · by_cases h2 : q = e.1
        · simp only [if_neg h1, if_pos h2, Pi.add_apply, Pi.neg_apply, Pi.zero_apply, map_one, map_zero,
            one_mul, zero_mul, add_zero, zero_sub, fnE, fnDE, tpE]
        · simp only [if_neg h1, if_neg h2, Pi.add_apply, Pi.zero_apply, map_zero,
            zero_mul, add_zero, sub_zero]
    · rw [if_neg hk, put_ne _ _ hk, put_ne _ _ hk, add_zero]

theorem anlmSums_ds (i : ℕ) (row : List (ℕ × Vec K)) (k : ℕ) (c : Fin 6) :
    (anlmSums p sqrt types i row).ds k c =
      (row.map fun e => ((p.noconj (types i)).map fun b => if k = b.iloc then
        -sixC (fun x => gV p sqrt types x i e b) e.2 c else 0).sum).sum := by
  refine anlmSums_proj p sqrt types i row (fun s => s.ds k c)
    (fun e b => -sixC (fun x => gV p sqrt types x i e b) e.2 c) k rfl ?_ ?_
  · intro e b h
    unfold gV
    simp only [if_neg h]
    fin_cases c <;> simp [sixC, smul_eq_mul]
  · intro s e b h
    unfold gV
    simp only [if_pos h]
    simp only [anlmStep, addAt_apply]
    by_cases hk : k = b.iloc
    · rw [if_pos hk, if_pos hk]; rfl
    · rw [if_neg hk, if_neg hk]; rfl

theorem noconj_sum_at (t : ℕ) (g : NlmAttr → Cx K) (k : ℕ) (hk : k < (p.attrs t).length) :
    ((p.noconj t).map fun b => if k = b.iloc then g b else 0).sum =
      if p.mOf t k ≤ 0 then atK p t g k else 0 := by
  have h := List.getElem?_eq_getElem hk
  rw [noconj_sum p t g k _ h, mOf_of_get p h, atK_of_get p h]

/-! ## Conjugate channels of the arrays -/

theorem conjStep_fold (t : ℕ) {V : Type} (X : NlmDeriv K → ℕ → V) (f : NlmAttr → V → V)
    (hX : ∀ s a, X (conjStep s a) = if a.lm.conj then put (X s) a.iloc (f a (X s a.ilocConj)) else X s)
    (s : NlmDeriv K) (k : ℕ) (a : NlmAttr) (ha : (p.attrs t)[k]? = some a) :
    X ((p.attrs t).foldl conjStep s) k = if a.lm.conj then f a (X s a.ilocConj) else X s k := by
  have key : ∀ (l : List NlmAttr), (∀ b ∈ l, (p.attrs t)[b.iloc]? = some b) → ∀ s : NlmDeriv K,
      ∀ (k : ℕ) (a : NlmAttr), (p.attrs t)[k]? = some a →
      X (l.foldl conjStep s) k = if a.lm.conj = true ∧ a ∈ l then f a (X s a.ilocConj) else X s k := by
    intro l
    induction l with
    | nil => intro _ s k a _; simp
    | cons b l ih =>
      intro hl s k a ha
      rw [List.foldl_cons, ih (fun c hc => hl c (by simp [hc])) (conjStep s b) k a ha]
      have hb := hl b (by simp)
      have hk := gt_iloc p t k a ha
      obtain ⟨c, l', m', hc, -, -, -, -, -, -, -, e1, e2, -⟩ := gt_conj p ha
      by_cases hac : a.lm.conj = true
      · have hcc : c.lm.conj = false := by
          rw [e1, lmAttr_conj] at hac
          rw [e2, lmAttr_conj]
          simp at hac ⊢
          omega
        have h1 : X (conjStep s b) a.ilocConj = X s a.ilocConj := by
          rw [hX]
          split_ifs with hbc
          · rw [put_ne]
            intro h
            rw [← h, hc] at hb
            cases hb
            rw [hcc] at hbc
            cases hbc
          · rfl
        by_cases hal : a ∈ l
        · rw [if_pos ⟨hac, hal⟩, if_pos ⟨hac, by simp [hal]⟩, h1]
        · rw [if_neg (fun h => hal h.2), hX]
          by_cases hba : b = a
          · subst hba
            rw [if_pos hac, if_pos ⟨hac, by simp⟩, ← hk, put_same]
          · have hne : k ≠ b.iloc := by
              intro h
              rw [← h, ha] at hb
              cases hb
              exact hba rfl
            have hnot : ¬(a.lm.conj = true ∧ a ∈ b :: l) := by
              rintro ⟨-, h⟩
              rcases List.mem_cons.1 h with h | h
              · exact hba h.symm
              · exact hal h
            rw [if_neg hnot]
            split_ifs with hbc
            · rw [put_ne _ _ hne]
            · rfl
      · rw [if_neg (fun h => hac h.1), if_neg (fun h => hac h.1), hX]
        split_ifs with hbc
        · rw [put_ne]
          intro h
          rw [← h, ha] at hb
          cases hb
          exact hac hbc
        · rfl
  have hall : ∀ b ∈ p.attrs t, (p.attrs t)[b.iloc]? = some b := by
    intro b hb
    obtain ⟨j, hj⟩ := List.mem_iff_getElem?.1 hb
    rw [gt_iloc p t j b hj, hj]
  rw [key _ hall s k a ha]
  simp only [List.mem_of_getElem? ha, and_true]

theorem smul_cc {t k : ℕ} {a : NlmAttr} (ha : (p.attrs t)[k]? = some a) (z : Cx K) :
    Cx.smul (a.lm.cc : K) z = algebraMap K (Cx K) (ccOf (p.mOf t k)) * z := by
  obtain ⟨_, l, m, -, -, -, -, -, -, -, -, h1, -⟩ := gt_conj p ha
  rw [smul_eq_mul, mOf_of_get p ha, h1, cc_cast, lmAttr_m]
  rfl

theorem conj_iff {t k : ℕ} {a : NlmAttr} (ha : (p.attrs t)[k]? = some a) :
    a.lm.conj = true ↔ ¬p.mOf t k ≤ 0 := by
  obtain ⟨_, l, m, -, -, -, -, -, -, -, -, h1, -⟩ := gt_conj p ha
  rw [mOf_of_get p ha, h1, lmAttr_conj, lmAttr_m]
  simp

/-- Any component of `compute_anlmtp_d` is the extension of the sums over the neighbours. -/
theorem anlmD_proj (i : ℕ) (row : List (ℕ × Vec K)) (X : NlmDeriv K → ℕ → Cx K)
    (hX : ∀ s a, X (conjStep s a) = if a.lm.conj then
      put (X s) a.iloc (Cx.smul (a.lm.cc : K) (Cx.conj (X s a.ilocConj))) else X s)
    (g : ℕ × Vec K → NlmAttr → Cx K)
    (hs : ∀ k, X (anlmSums p sqrt types i row) k =
      (row.map fun e => ((p.noconj (types i)).map fun b => if k = b.iloc then g e b else 0).sum).sum) :
    ∀ k < (p.attrs (types i)).length, X (anlmD p sqrt types i row) k =
      (row.map fun e => extK p (types i) (atK p (types i) (g e)) k).sum := by
  intro k hk
  have ha := List.getElem?_eq_getElem hk
  generalize (p.attrs (types i))[k] = a at ha
  unfold anlmD
  rw [conjStep_fold p (types i) X (fun a z => Cx.smul (a.lm.cc : K) (Cx.conj z)) hX _ k a ha,
    ← extK_sum]
  unfold extK
  have hc := gt_chanSym p (types i)
  by_cases hm : p.mOf (types i) k ≤ 0
  · rw [if_neg (fun h => (conj_iff p ha).1 h hm), if_pos hm, hs]
    refine sum_map_congr _ _ _ ?_
    intro e _
    rw [noconj_sum_at p _ _ k hk, if_pos hm]
  · rw [if_pos ((conj_iff p ha).2 hm), if_neg hm, hs, smul_cc p ha, ← kap_of_get p ha]
    congr 3
    refine List.map_congr_left ?_
    intro e _
    rw [noconj_sum_at p _ _ _ (hc.lt k hk), if_pos (by rw [hc.neg k hk]; omega)]

theorem anlmD_a (i : ℕ) (row : List (ℕ × Vec K)) : ∀ k < (p.attrs (types i)).length,
    (anlmD p sqrt types i row).a k =
      (row.map fun e => extK p (types i) (atK p (types i) (gW p sqrt types i e)) k).sum := by
  refine anlmD_proj p sqrt types i row (fun s => s.a) ?_ _ (anlmSums_a p sqrt types i row)
  intro s a
  unfold conjStep
  split_ifs <;> rfl

theorem anlmD_df (i : ℕ) (row : List (ℕ × Vec K)) (q : ℕ) (x : Fin 3) :
    ∀ k < (p.attrs (types i)).length, (anlmD p sqrt types i row).df k q x =
      (row.map fun e => algebraMap K (Cx K) (sgnAt q i e.1) *
        extK p (types i) (atK p (types i) (gV p sqrt types x i e)) k).sum := by
  intro k hk
  rw [anlmD_proj p sqrt types i row (fun s k => s.df k q x) ?_ _
    (fun k => anlmSums_df p sqrt types i row k q x) k hk]
  · refine sum_map_congr _ _ _ ?_
    intro e _
    rw [← extK_scale p (types i) (fun _ => sgnAt q i e.1) (fun _ _ => rfl) _ k hk]
    refine extK_congr p (types i) ?_ k hk
    intro k hk _
    unfold atK
    rw [List.getElem?_eq_getElem hk]
    rfl
  · intro s a
    unfold conjStep
    split_ifs
    · funext k
      simp only [put]
      split_ifs <;> rfl
    · rfl

theorem anlmD_ds (i : ℕ) (row : List (ℕ × Vec K)) (c : Fin 6) :
    ∀ k < (p.attrs (types i)).length, (anlmD p sqrt types i row).ds k c =
      (row.map fun e => extK p (types i) (atK p (types i) fun b =>
        -sixC (fun x => gV p sqrt types x i e b) e.2 c) k).sum := by
  intro k hk
  rw [anlmD_proj p sqrt types i row (fun s k => s.ds k c) ?_ _
    (fun k => anlmSums_ds p sqrt types i row k c) k hk]
  · intro s a
    unfold conjStep
    split_ifs
    · funext k
      simp only [put]
      split_ifs <;> rfl
    · rfl

end Verif.Mlp
