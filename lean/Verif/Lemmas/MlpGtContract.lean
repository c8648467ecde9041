import Verif.Model.MlpGtEval
import Verif.Lemmas.MlpEval
import Verif.Props.MlpFeat
import Mathlib.Algebra.Algebra.Defs
import Mathlib.Data.Multiset.Basic
import Mathlib.Algebra.GroupWithZero.Basic

namespace Verif.Mlp
open Verif
open Verif.Neighbor (Vec Csr r2 mkCsr)

/-! ## Product rule for lists of factors -/

section Leib
variable {A : Type} [CommRing A]

/-- Product rule: `w` are the derivatives of the factors `a`. -/
def leib (a w : ℕ → A) : List ℕ → A
  | [] => 0
  | x :: l => w x * (l.map a).prod + a x * leib a w l

theorem leib_eq (a w : ℕ → A) (ids : List ℕ) :
    leib a w ids = ((List.range ids.length).map fun j =>
      w (ids.getD j 0) * ((ids.eraseIdx j).map a).prod).sum := by
  induction ids with
  | nil => rfl
  | cons x l ih =>
    rw [leib, ih, List.length_cons, List.range_succ_eq_map, List.map_cons, List.sum_cons,
      List.map_map, ← List.sum_map_mul_left]
    congr 1
    refine sum_map_congr _ _ _ ?_
    intro j _
    simp only [Function.comp, List.getD_cons_succ, List.eraseIdx_cons_succ, List.map_cons,
      List.prod_cons]
    ring

theorem leib_perm (a w : ℕ → A) {l l' : List ℕ} (h : l.Perm l') : leib a w l = leib a w l' := by
  induction h with
  | nil => rfl
  | cons x h ih => rw [leib, leib, ih, (h.map a).prod_eq]
  | swap x y l => simp only [leib, List.map_cons, List.prod_cons]; ring
  | trans _ _ h1 h2 => rw [h1, h2]

theorem leib_congr {a a' w w' : ℕ → A} {ids : List ℕ} (ha : ∀ k ∈ ids, a k = a' k)
    (hw : ∀ k ∈ ids, w k = w' k) : leib a w ids = leib a' w' ids := by
  induction ids with
  | nil => rfl
  | cons x l ih =>
    rw [leib, leib, ih (fun k hk => ha k (by simp [hk])) (fun k hk => hw k (by simp [hk])),
      ha x (by simp), hw x (by simp), List.map_congr_left (fun k hk => ha k (by simp [hk]))]

theorem leib_add (a w w' : ℕ → A) (ids : List ℕ) :
    leib a (fun k => w k + w' k) ids = leib a w ids + leib a w' ids := by
  induction ids with
  | nil => simp [leib]
  | cons x l ih => rw [leib, leib, leib, ih]; ring

theorem leib_mul (a w : ℕ → A) (c : A) (ids : List ℕ) :
    leib a (fun k => c * w k) ids = c * leib a w ids := by
  induction ids with
  | nil => simp [leib]
  | cons x l ih => rw [leib, leib, ih]; ring

theorem leib_sum {β : Type} (a : ℕ → A) (l : List β) (w : β → ℕ → A) (ids : List ℕ) :
    leib a (fun k => (l.map fun b => w b k).sum) ids = (l.map fun b => leib a (w b) ids).sum := by
  induction l with
  | nil =>
    simp only [List.map_nil, List.sum_nil]
    induction ids with
    | nil => rfl
    | cons x l ih => rw [leib, ih]; ring
  | cons b l ih => simp only [List.map_cons, List.sum_cons, leib_add, ih]

theorem leib_scale (ε a w : ℕ → A) (ids : List ℕ) :
    leib (fun k => ε k * a k) (fun k => ε k * w k) ids = (ids.map ε).prod * leib a w ids := by
  induction ids with
  | nil => simp [leib]
  | cons x l ih =>
    have : (l.map fun k => ε k * a k).prod = (l.map ε).prod * (l.map a).prod := List.prod_map_mul
    rw [leib, leib, ih, this, List.map_cons, List.prod_cons]; ring

theorem leib_map (a w : ℕ → A) (κ : ℕ → ℕ) (ids : List ℕ) :
    leib a w (ids.map κ) = leib (fun k => a (κ k)) (fun k => w (κ k)) ids := by
  induction ids with
  | nil => rfl
  | cons x l ih => rw [List.map_cons, leib, leib, ih, List.map_map]; rfl

theorem leib_hom {B : Type} [CommRing B] (φ : A →+* B) (a w : ℕ → A) (ids : List ℕ) :
    leib (fun k => φ (a k)) (fun k => φ (w k)) ids = φ (leib a w ids) := by
  induction ids with
  | nil => simp [leib]
  | cons x l ih =>
    rw [leib, leib, ih, map_add, map_mul, map_mul, map_list_prod, List.map_map]; rfl

theorem leib_self (a : ℕ → A) (ids : List ℕ) :
    leib a a ids = (ids.length : A) * (ids.map a).prod := by
  induction ids with
  | nil => simp [leib]
  | cons x l ih => rw [leib, ih, List.map_cons, List.prod_cons, List.length_cons]; push_cast; ring

end Leib

/-! ## The field in the complex numbers -/

section CxAlg
variable {K : Type} [Field K]

/-- Real numbers as complex numbers. -/
def Cx.ofRealHom : K →+* Cx K where
  toFun c := ⟨c, 0⟩
  map_one' := rfl
  map_zero' := rfl
  map_add' a b := by ext <;> simp
  map_mul' a b := by ext <;> simp

instance : Algebra K (Cx K) := Cx.ofRealHom.toAlgebra

theorem algebraMap_cx (c : K) : algebraMap K (Cx K) c = ⟨c, 0⟩ := rfl

theorem smul_eq_mul (c : K) (z : Cx K) : Cx.smul c z = algebraMap K (Cx K) c * z := by
  rw [algebraMap_cx]; ext <;> simp

/-- Conjugation as a ring homomorphism. -/
def Cx.conjHom : Cx K →+* Cx K where
  toFun := Cx.conj
  map_one' := by ext <;> simp
  map_zero' := by ext <;> simp
  map_add' a b := by ext <;> simp; ring
  map_mul' a b := by ext <;> simp; ring

theorem conjHom_apply (z : Cx K) : Cx.conjHom z = Cx.conj z := rfl

/-- The real part is additive. -/
def Cx.reHom : Cx K →+ K where
  toFun := Cx.re
  map_zero' := rfl
  map_add' _ _ := rfl

theorem reHom_apply (z : Cx K) : Cx.reHom z = z.re := rfl

theorem re_sum {β : Type} (l : List β) (f : β → Cx K) : ((l.map f).sum).re = (l.map fun b => (f b).re).sum := by
  rw [← reHom_apply, map_list_sum, List.map_map]; rfl

theorem re_algebraMap_mul (c : K) (z : Cx K) : (algebraMap K (Cx K) c * z).re = c * z.re := by
  rw [algebraMap_cx]; simp

theorem prodReal_eq (a b : Cx K) : prodReal a b = (a * b).re := rfl

theorem products_hom {A B : Type} [CommRing A] [CommRing B] (φ : A →+* B) (map : List (List ℕ))
    (F : ℕ → A) (i : ℕ) : products map (fun k => φ (F k)) i = φ (products map F i) := by
  unfold products
  simp only [List.getD_eq_getElem?_getD, List.getElem?_map]
  cases map[i]? with
  | none => simp
  | some p => simp only [Option.map_some, Option.getD_some, product_eq, map_list_prod, List.map_map]; rfl

end CxAlg

/-! ## Sums over the flattened potential -/

section Pot
variable {K : Type} [Field K]

theorem sumGtinv_eq (P : Pot K) (hP : P.flat = mkCsr P.model) (fvals : ℕ → K) (a : ℕ → Cx K) (h : ℕ)
    (hh : h < P.model.length) :
    (P.sumGtinv fvals a).1 h = ((P.model.getD h []).map fun t => algebraMap K (Cx K) t.ce *
      (algebraMap K (Cx K) (fvals t.pfid) * products (prodDerivMap P.features) a t.pid)).sum ∧
    (P.sumGtinv fvals a).2 h = ((P.model.getD h []).map fun t => algebraMap K (Cx K) t.cf *
      (algebraMap K (Cx K) (fvals t.pfid) * products (prodDerivMap P.features) a t.pid)).sum := by
  have hrow : P.flat.row h = P.model.getD h [] := by
    rw [hP, Neighbor.mkCsr_row _ _ hh, List.getD_eq_getElem?_getD, List.getElem?_eq_getElem hh]; rfl
  unfold Pot.sumGtinv
  simp only [hrow]
  constructor
  · rw [foldl_proj (f := fun s : Cx K × Cx K => s.1) (g := fun t => algebraMap K (Cx K) t.ce *
      (algebraMap K (Cx K) (fvals t.pfid) * products (prodDerivMap P.features) a t.pid)), zero_add]
    intro s t _
    ext <;> simp [algebraMap_cx] <;> ring
  · rw [foldl_proj (f := fun s : Cx K × Cx K => s.2) (g := fun t => algebraMap K (Cx K) t.cf *
      (algebraMap K (Cx K) (fvals t.pfid) * products (prodDerivMap P.features) a t.pid)), zero_add]
    intro s t _
    ext <;> simp [algebraMap_cx] <;> ring

theorem model_length (elim : Bool) (isConj : ℕ → Bool) (target : ℕ → Option ℕ) (n : ℕ)
    (features : List (List (SingleTerm K))) (poly : List (ℕ × List ℕ)) (pot : ℕ → K) :
    (mkPot elim isConj target n features poly pot).model.length = n := by
  simp [mkPot, sortedModel]

/-- Weight `1` at `k`. -/
def delta {A : Type} [CommRing A] (k : ℕ) : ℕ → A := fun x => if x = k then 1 else 0

/-- Derivative sums of one head: `head` selects the position of the factors. -/
theorem gt_sums (isConj : ℕ → Bool) (target : ℕ → Option ℕ) (n : ℕ)
    (features : List (List (SingleTerm K))) (poly : List (ℕ × List ℕ)) (pot : ℕ → K) (F : ℕ → K)
    (a : ℕ → Cx K) (h : ℕ) (hn : h < n) (k : ℕ)
    (hk : ∀ f, ∀ s ∈ features.getD f [], ∀ q ∈ s.2,
      (isConj q = false ∧ target q = some h) ↔ q = k) :
    let P := mkPot true isConj target n features poly pot
    let S := P.sumGtinv (products (prodFeaturesMap poly) F) a
    let T := fun sel : (K × K) →+ K => (poly.map fun t => ((List.range t.2.length).map fun i =>
        ((features.getD (t.2.getD i 0) []).map fun s => algebraMap K (Cx K)
          (sel (pot t.1 * s.1 / (((t.2.map (featureSize features)).sum : ℕ) : K), pot t.1 * s.1) *
            ((t.2.eraseIdx i).map F).prod) * leib a (delta k) s.2).sum).sum).sum
    S.1 h = T (AddMonoidHom.fst K K) ∧ S.2 h = T (AddMonoidHom.snd K K) := by
  intro P S T
  have key : ∀ sel : (K × K) →+ K, (((P.model).getD h []).map fun t =>
      algebraMap K (Cx K) (sel (t.ce, t.cf)) *
        (algebraMap K (Cx K) (products (prodFeaturesMap poly) F t.pfid) *
          products (prodDerivMap features) a t.pid)).sum = T sel := by
    intro sel
    have h1 := pot_sum (A := Cx K) true isConj target n features poly pot
      (fun k => algebraMap K (Cx K) (F k)) a h hn sel
    simp only [products_hom] at h1
    refine h1.trans ?_
    refine sum_map_congr _ _ _ ?_
    intro t _
    refine sum_map_congr _ _ _ ?_
    intro i _
    refine sum_map_congr _ _ _ ?_
    intro s hs
    rw [leib_eq, ← List.sum_map_mul_left]
    refine sum_map_congr _ _ _ ?_
    intro j hj
    rw [List.mem_range] at hj
    have hq : s.2.getD j 0 ∈ s.2 := by
      rw [List.getD_eq_getElem?_getD, List.getElem?_eq_getElem hj]; exact List.getElem_mem hj
    have hiff := hk _ s hs _ hq
    have hF : (List.map (fun k => algebraMap K (Cx K) (F k)) (t.2.eraseIdx i)).prod =
        algebraMap K (Cx K) ((t.2.eraseIdx i).map F).prod := by
      rw [map_list_prod, List.map_map]; rfl
    rw [hF, map_mul]
    unfold delta
    clear hq
    generalize s.2.getD j 0 = q at hiff ⊢
    by_cases hc : q = k
    · obtain ⟨h2, h3⟩ := hiff.2 hc
      rw [h2, h3, if_pos rfl, if_pos hc]
      simp only [Bool.and_false, Bool.false_eq_true, if_false]
      ring
    · rw [if_neg hc]
      by_cases h2 : isConj q = false
      · have h3 : ¬ target q = some h := fun h3 => hc (hiff.1 ⟨h2, h3⟩)
        simp [h2, h3]
      · simp [h2]
  have hS := sumGtinv_eq P rfl (products (prodFeaturesMap poly) F) a h
    (by rw [model_length]; exact hn)
  exact ⟨hS.1.trans (key (AddMonoidHom.fst K K)), hS.2.trans (key (AddMonoidHom.snd K K))⟩

end Pot

/-! ## Conjugate channels -/

section Conj
variable {K : Type} [Field K]

/-- `κ` is the index of the channel with the opposite `m`. -/
structure ChanSym (L : ℕ) (κ : ℕ → ℕ) (m : ℕ → ℤ) : Prop where
  lt : ∀ k < L, κ k < L
  inv : ∀ k < L, κ (κ k) = k
  neg : ∀ k < L, m (κ k) = -m k
  zero : ∀ k < L, m k = 0 → κ k = k

/-- `(-1)^m`. -/
def ccOf (m : ℤ) : K := (-1) ^ m.natAbs

theorem ccOf_zpow (m : ℤ) : (ccOf m : K) = (-1 : K) ^ m := by
  unfold ccOf
  rcases Int.natAbs_eq m with h | h
  · conv_rhs => rw [h]
    rw [zpow_natCast]
  · conv_rhs => rw [h]
    rw [zpow_neg, zpow_natCast, ← inv_pow, inv_neg_one]

theorem ccOf_add (m m' : ℤ) : (ccOf (m + m') : K) = ccOf m * ccOf m' := by
  rw [ccOf_zpow, ccOf_zpow, ccOf_zpow, zpow_add₀ (by simp)]

theorem ccOf_neg (m : ℤ) : (ccOf (-m) : K) = ccOf m := by unfold ccOf; rw [Int.natAbs_neg]

theorem ccOf_zero : (ccOf 0 : K) = 1 := by simp [ccOf]

theorem ccOf_mul_self (m : ℤ) : (ccOf m : K) * ccOf m = 1 := by
  unfold ccOf; rw [← mul_pow]; simp

theorem ccOf_prod (m : ℕ → ℤ) (ids : List ℕ) :
    (ids.map fun k => algebraMap K (Cx K) (ccOf (m k))).prod =
      algebraMap K (Cx K) (ccOf (ids.map m).sum) := by
  induction ids with
  | nil => simp [ccOf_zero]
  | cons x l ih => rw [List.map_cons, List.prod_cons, ih, List.map_cons, List.sum_cons, ccOf_add, map_mul]

/-- The value of `(l, -m)` is `(-1)^m` times the conjugate of the value of `(l, m)`. -/
def ConjSym (L : ℕ) (κ : ℕ → ℕ) (m : ℕ → ℤ) (a : ℕ → Cx K) : Prop :=
  ∀ k < L, a (κ k) = algebraMap K (Cx K) (ccOf (m k)) * Cx.conj (a k)

/-- A sum of terms over the channels that does not change when all `m` change their sign. -/
structure FeatSym (L : ℕ) (κ : ℕ → ℕ) (m : ℕ → ℤ) (f : List (SingleTerm K)) : Prop where
  lt : ∀ s ∈ f, ∀ q ∈ s.2, q < L
  sum : ∀ s ∈ f, (s.2.map m).sum = 0
  closed : (f.map fun s => (s.1, (↑(s.2.map κ) : Multiset ℕ))).Perm
    (f.map fun s => (s.1, (↑s.2 : Multiset ℕ)))

theorem feat_refl {L : ℕ} {κ : ℕ → ℕ} {m : ℕ → ℤ} {f : List (SingleTerm K)} (hf : FeatSym L κ m f)
    (Φ : List ℕ → K) (hΦ : ∀ l l' : List ℕ, l.Perm l' → Φ l = Φ l') :
    (f.map fun s => s.1 * Φ (s.2.map κ)).sum = (f.map fun s => s.1 * Φ s.2).sum := by
  let Ψ : Multiset ℕ → K := fun q => Quot.lift Φ hΦ q
  have h := (hf.closed.map fun e => e.1 * Ψ e.2).sum_eq
  rw [List.map_map, List.map_map] at h
  exact h

theorem leib_conj {L : ℕ} {κ : ℕ → ℕ} {m : ℕ → ℤ} {a w w' : ℕ → Cx K}
    (ha : ConjSym L κ m a) (ids : List ℕ) (hlt : ∀ q ∈ ids, q < L) (hs : (ids.map m).sum = 0)
    (hw : ∀ k < L, w (κ k) = algebraMap K (Cx K) (ccOf (m k)) * Cx.conj (w' k)) :
    leib a w (ids.map κ) = Cx.conj (leib a w' ids) := by
  rw [leib_map, leib_congr (fun k hk => ha k (hlt k hk)) (fun k hk => hw k (hlt k hk)),
    leib_scale (fun k => algebraMap K (Cx K) (ccOf (m k))) (fun k => Cx.conj (a k))
      (fun k => Cx.conj (w' k)), ccOf_prod, hs, ccOf_zero, map_one, one_mul]
  exact leib_hom Cx.conjHom a w' ids

theorem conj_algebraMap (c : K) (z : Cx K) :
    Cx.conj (algebraMap K (Cx K) c * z) = algebraMap K (Cx K) c * Cx.conj z := by
  rw [algebraMap_cx]; ext <;> simp

/-- The derivative of a feature from the channels with `m ≤ 0` only. -/
theorem feat_half [CharZero K] {L : ℕ} {κ : ℕ → ℕ} {m : ℕ → ℤ} (hc : ChanSym L κ m)
    {f : List (SingleTerm K)} (hf : FeatSym L κ m f) {a w : ℕ → Cx K} (ha : ConjSym L κ m a)
    (hw : ConjSym L κ m w) (v : ℕ → Cx K)
    (hv : ∀ k < L, v k = if 0 < m k then 0 else if m k = 0 then w k else 2 * w k) :
    (f.map fun s => s.1 * (leib a v s.2).re).sum = (f.map fun s => s.1 * (leib a w s.2).re).sum := by
  let v' : ℕ → Cx K := fun k => if m k < 0 then 0 else if m k = 0 then w k else 2 * w k
  have h1 := feat_refl hf (fun ids => (leib a v ids).re) (fun l l' h => by rw [leib_perm a v h])
  have h2 : ∀ s ∈ f, s.1 * (leib a v (s.2.map κ)).re = s.1 * (leib a v' s.2).re := by
    intro s hs
    rw [leib_conj (w' := v') ha s.2 (hf.lt s hs) (hf.sum s hs), Cx.conj_re]
    intro k hk
    have e1 : algebraMap K (Cx K) (ccOf (m k)) * Cx.conj (w k) = w (κ k) := (hw k hk).symm
    have h2' : Cx.conj (2 * w k) = 2 * Cx.conj (w k) := by
      rw [two_mul, two_mul]; ext <;> simp [add_comm]
    have h0 : Cx.conj (0 : Cx K) = 0 := by ext <;> simp
    rw [hv _ (hc.lt k hk), hc.neg k hk]
    simp only [v']
    by_cases hm : m k < 0
    · rw [if_pos (by omega), if_pos hm, h0, mul_zero]
    · by_cases hm0 : m k = 0
      · rw [if_neg (by omega), if_pos (by omega), if_neg hm, if_pos hm0, e1]
      · rw [if_neg (by omega), if_neg (by omega), if_neg hm, if_neg hm0, h2', mul_left_comm, e1]
  have h3 : ∀ s ∈ f, s.1 * (leib a v s.2).re + s.1 * (leib a v' s.2).re =
      2 * (s.1 * (leib a w s.2).re) := by
    intro s hs
    have : leib a v s.2 + leib a v' s.2 = 2 * leib a w s.2 := by
      rw [← leib_add, ← leib_mul]
      refine leib_congr (fun _ _ => rfl) ?_
      intro k hk
      rw [hv k (hf.lt s hs k hk)]
      simp only [v']
      rcases lt_trichotomy (m k) 0 with h | h | h
      · rw [if_neg (by omega), if_neg (by omega), if_pos h, add_zero]
      · rw [if_neg (by omega), if_pos h, if_neg (by omega), two_mul]
      · rw [if_pos h, if_neg (by omega), if_neg (by omega), zero_add]
    have h4 := congrArg Cx.re this
    have h5 : (2 * leib a w s.2).re = 2 * (leib a w s.2).re := by rw [two_mul, two_mul]; rfl
    rw [Cx.add_re, h5] at h4
    rw [← mul_add, h4]; ring
  have h6 : (f.map fun s => s.1 * (leib a v s.2).re).sum + (f.map fun s => s.1 * (leib a v s.2).re).sum =
      2 * (f.map fun s => s.1 * (leib a w s.2).re).sum := by
    have h8 := sum_map_congr _ _ _ h2
    rw [h1] at h8
    conv_lhs => rw [h8]; arg 1; rw [← h8]
    rw [← List.sum_map_add, sum_map_congr _ _ _ h3, sum_map_mul_left']
  have h7 : (2 : K) ≠ 0 := two_ne_zero
  rw [← two_mul] at h6
  exact mul_left_cancel₀ h7 h6

/-- The derivative of the features along `w`. -/
def featD (features : List (List (SingleTerm K))) (a w : ℕ → Cx K) (f : ℕ) : K :=
  ((features.getD f []).map fun s => s.1 * (leib a w s.2).re).sum

/-- The exact value of the features. -/
def featV (features : List (List (SingleTerm K))) (a : ℕ → Cx K) (f : ℕ) : K :=
  ((features.getD f []).map fun s => s.1 * ((s.2.map a).prod).re).sum

/-- Contraction of the sums over the flattened potential with `w`. -/
theorem gt_contract_aux [CharZero K] {L : ℕ} {κ : ℕ → ℕ} {m : ℕ → ℤ} (hc : ChanSym L κ m)
    (features : List (List (SingleTerm K))) (poly : List (ℕ × List ℕ))
    (hfeat : ∀ f, FeatSym L κ m (features.getD f [])) (a w : ℕ → Cx K) (ha : ConjSym L κ m a)
    (hw : ConjSym L κ m w) (F : ℕ → K) (B : List NlmAttr) (hBm : ∀ b ∈ B, b.lm.m = m b.iloc)
    (hcount : ∀ k < L, (B.map fun b => if k = b.iloc then (1 : K) else 0).sum =
      if 0 < m k then 0 else 1)
    (co : ℕ × List ℕ → K → K) (γ : ℕ × List ℕ → K) (hγ : ∀ t x, co t x = 2 * γ t * x) :
    (B.map fun b => prodReal (w b.iloc) (Cx.smul (if b.lm.m = 0 then 1 / 2 else 1)
      (poly.map fun t => ((List.range t.2.length).map fun i =>
        ((features.getD (t.2.getD i 0) []).map fun s => algebraMap K (Cx K)
          (co t s.1 * ((t.2.eraseIdx i).map F).prod) * leib a (delta b.iloc) s.2).sum).sum).sum)).sum =
      (poly.map fun t => γ t * termDeriv F (featD features a w) t.2).sum := by
  have h1 : ∀ b ∈ B, prodReal (w b.iloc) (Cx.smul (if b.lm.m = 0 then 1 / 2 else 1)
      (poly.map fun t => ((List.range t.2.length).map fun i =>
        ((features.getD (t.2.getD i 0) []).map fun s => algebraMap K (Cx K)
          (co t s.1 * ((t.2.eraseIdx i).map F).prod) * leib a (delta b.iloc) s.2).sum).sum).sum) =
      (poly.map fun t => ((List.range t.2.length).map fun i =>
        ((features.getD (t.2.getD i 0) []).map fun s => (γ t * ((t.2.eraseIdx i).map F).prod) *
          (s.1 * (leib a (fun k => algebraMap K (Cx K) (if b.lm.m = 0 then 1 else 2) *
            (w b.iloc * delta b.iloc k)) s.2).re)).sum).sum).sum := by
    intro b _
    rw [prodReal_eq, smul_eq_mul, ← mul_assoc, ← List.sum_map_mul_left, re_sum]
    refine sum_map_congr _ _ _ ?_
    intro t _
    rw [← List.sum_map_mul_left, re_sum]
    refine sum_map_congr _ _ _ ?_
    intro i _
    rw [← List.sum_map_mul_left, re_sum]
    refine sum_map_congr _ _ _ ?_
    intro s _
    rw [leib_mul, leib_mul, hγ]
    have h2 : ∀ (x y z : K) (u v : Cx K), (u * algebraMap K (Cx K) x *
        (algebraMap K (Cx K) (2 * y * z) * v)).re = y * (z * (algebraMap K (Cx K) (2 * x) * (u * v)).re) := by
      intro x y z u v
      rw [show u * algebraMap K (Cx K) x * (algebraMap K (Cx K) (2 * y * z) * v) =
        (algebraMap K (Cx K) x * algebraMap K (Cx K) (2 * y * z)) * (u * v) by ring, ← map_mul,
        re_algebraMap_mul, re_algebraMap_mul]
      ring
    rw [show (2 * γ t * s.1 * ((t.2.eraseIdx i).map F).prod : K) =
      2 * (γ t * ((t.2.eraseIdx i).map F).prod) * s.1 by ring, h2]
    have h3 : (2 * if b.lm.m = 0 then (1 / 2 : K) else 1) = if b.lm.m = 0 then 1 else 2 := by
      split_ifs <;> norm_num
    rw [h3]
  rw [sum_map_congr _ _ _ h1, sum_map_comm]
  refine sum_map_congr _ _ _ ?_
  intro t _
  rw [sum_map_comm, termDeriv, ← List.sum_map_mul_left]
  refine sum_map_congr _ _ _ ?_
  intro i _
  rw [sum_map_comm]
  have h4 : ∀ s ∈ features.getD (t.2.getD i 0) [],
      (B.map fun b => (γ t * ((t.2.eraseIdx i).map F).prod) *
          (s.1 * (leib a (fun k => algebraMap K (Cx K) (if b.lm.m = 0 then 1 else 2) *
            (w b.iloc * delta b.iloc k)) s.2).re)).sum =
      (γ t * ((t.2.eraseIdx i).map F).prod) * (s.1 * (leib a
        (fun k => (B.map fun b => algebraMap K (Cx K) (if b.lm.m = 0 then 1 else 2) *
            (w b.iloc * delta b.iloc k)).sum) s.2).re) := by
    intro s _
    rw [leib_sum, re_sum, sum_map_mul_left', sum_map_mul_left']
  rw [sum_map_congr _ _ _ h4, sum_map_mul_left', feat_half hc (hfeat _) ha hw]
  · unfold featD; ring
  · intro k hk
    have h5 : ∀ b ∈ B, algebraMap K (Cx K) (if b.lm.m = 0 then 1 else 2) * (w b.iloc * delta b.iloc k) =
        (algebraMap K (Cx K) (if m k = 0 then 1 else 2) * w k) *
          algebraMap K (Cx K) (if k = b.iloc then (1 : K) else 0) := by
      intro b hb
      unfold delta
      by_cases h : k = b.iloc
      · rw [if_pos h, if_pos h, hBm b hb, ← h, map_one]; ring
      · rw [if_neg h, if_neg h, map_zero]; ring
    have h6 : (B.map fun b => algebraMap K (Cx K) (if k = b.iloc then (1 : K) else 0)).sum =
        algebraMap K (Cx K) (if 0 < m k then 0 else 1) := by
      rw [← hcount k hk, map_list_sum, List.map_map]; rfl
    rw [sum_map_congr _ _ _ h5, List.sum_map_mul_left, h6]
    rcases lt_trichotomy (m k) 0 with h | h | h
    · rw [if_neg (by omega), if_neg (by omega), if_neg (by omega), if_neg (by omega), map_one, mul_one,
        map_ofNat]
    · rw [if_pos h, if_neg (by omega), if_neg (by omega), if_pos h, map_one, one_mul, mul_one]
    · rw [if_neg (by omega), if_pos h, if_pos h, map_zero, mul_zero]

/-- Contraction of the sums of a potential made from doubled coefficients, for the forces. -/
theorem gt_contract_force [CharZero K] {L : ℕ} {κ : ℕ → ℕ} {m : ℕ → ℤ} (hc : ChanSym L κ m)
    (features : List (List (SingleTerm K))) (poly : List (ℕ × List ℕ))
    (hfeat : ∀ f, FeatSym L κ m (features.getD f [])) (a w : ℕ → Cx K) (ha : ConjSym L κ m a)
    (hw : ConjSym L κ m w) (F c : ℕ → K) (B : List NlmAttr) (hBm : ∀ b ∈ B, b.lm.m = m b.iloc)
    (hcount : ∀ k < L, (B.map fun b => if k = b.iloc then (1 : K) else 0).sum =
      if 0 < m k then 0 else 1)
    (isConj : ℕ → Bool) (target : ℕ → Option ℕ) (n : ℕ)
    (hB : ∀ b ∈ B, b.ilocNoconj < n ∧
      ∀ q < L, (isConj q = false ∧ target q = some b.ilocNoconj) ↔ q = b.iloc) :
    let S := (mkPot true isConj target n features poly (fun i => 2 * c i)).sumGtinv
      (products (prodFeaturesMap poly) F) a
    (B.map fun b => prodReal (w b.iloc) (Cx.smul (if b.lm.m = 0 then 1 / 2 else 1)
      (S.2 b.ilocNoconj))).sum =
      (poly.map fun t => c t.1 * termDeriv F (featD features a w) t.2).sum := by
  intro S
  rw [← gt_contract_aux hc features poly hfeat a w ha hw F B hBm hcount
    (fun t x => 2 * c t.1 * x) (fun t => c t.1) (fun t x => rfl)]
  refine sum_map_congr _ _ _ ?_
  intro b hb
  have := (gt_sums isConj target n features poly (fun i => 2 * c i) F a b.ilocNoconj (hB b hb).1
    b.iloc (fun f s hs q hq => (hB b hb).2 q ((hfeat f).lt s hs q hq))).2
  rw [this]
  rfl

/-- Contraction of the sums of a potential made from doubled coefficients, for the energy. -/
theorem gt_contract_energy [CharZero K] {L : ℕ} {κ : ℕ → ℕ} {m : ℕ → ℤ} (hc : ChanSym L κ m)
    (features : List (List (SingleTerm K))) (poly : List (ℕ × List ℕ))
    (hfeat : ∀ f, FeatSym L κ m (features.getD f [])) (a : ℕ → Cx K) (ha : ConjSym L κ m a)
    (F c : ℕ → K) (B : List NlmAttr) (hBm : ∀ b ∈ B, b.lm.m = m b.iloc)
    (hcount : ∀ k < L, (B.map fun b => if k = b.iloc then (1 : K) else 0).sum =
      if 0 < m k then 0 else 1)
    (isConj : ℕ → Bool) (target : ℕ → Option ℕ) (n : ℕ)
    (hB : ∀ b ∈ B, b.ilocNoconj < n ∧
      ∀ q < L, (isConj q = false ∧ target q = some b.ilocNoconj) ↔ q = b.iloc)
    (hF : ∀ f, F f = featV features a f) (hne : ∀ t ∈ poly, t.2 ≠ [])
    (hsize : ∀ f, ∀ s ∈ features.getD f [], s.2.length = featureSize features f ∧ 0 < s.2.length) :
    let S := (mkPot true isConj target n features poly (fun i => 2 * c i)).sumGtinv
      (products (prodFeaturesMap poly) F) a
    (B.map fun b => prodReal (a b.iloc) (Cx.smul (if b.lm.m = 0 then 1 / 2 else 1)
      (S.1 b.ilocNoconj))).sum = (poly.map fun t => c t.1 * (t.2.map F).prod).sum := by
  intro S
  have h1 := gt_contract_aux hc features poly hfeat a a ha ha F B hBm hcount
    (fun t x => 2 * c t.1 * x / (((t.2.map (featureSize features)).sum : ℕ) : K))
    (fun t => c t.1 / (((t.2.map (featureSize features)).sum : ℕ) : K)) (fun t x => by ring)
  have hD : ∀ f, featD features a a f = (featureSize features f : K) * F f := by
    intro f
    rw [hF f, featV, featD, ← sum_map_mul_left']
    refine sum_map_congr _ _ _ ?_
    intro s hs
    rw [leib_self, (hsize f s hs).1, ← map_natCast (algebraMap K (Cx K)), re_algebraMap_mul]
    ring
  have h2 : ∀ t ∈ poly, c t.1 / (((t.2.map (featureSize features)).sum : ℕ) : K) *
      termDeriv F (featD features a a) t.2 = c t.1 * (t.2.map F).prod := by
    intro t ht
    have h3 : termDeriv F (featD features a a) t.2 =
        (((t.2.map (featureSize features)).sum : ℕ) : K) * (t.2.map F).prod := by
      have h4 : ∀ i ∈ List.range t.2.length, featD features a a (t.2.getD i 0) *
          ((t.2.eraseIdx i).map F).prod = (t.2.map F).prod * (featureSize features (t.2.getD i 0) : K) := by
        intro i hi
        rw [List.mem_range] at hi
        rw [hD, mul_right_comm, mul_assoc, mul_comm]
        congr 1
        rw [List.getD_eq_getElem?_getD, List.getElem?_eq_getElem hi, Option.getD_some,
          mul_comm, ← List.prod_cons, ← List.map_cons]
        exact ((List.getElem_cons_eraseIdx_perm hi).map F).prod_eq
      rw [termDeriv, sum_map_congr _ _ _ h4, sum_map_mul_left', mul_comm]
      congr 1
      rw [Nat.cast_list_sum, List.map_map]
      congr 1
      apply List.ext_getElem
      · simp
      · intro i hi _
        simp at hi
        simp [List.getD_eq_getElem?_getD, List.getElem?_eq_getElem hi]
    rw [h3]
    by_cases hN : (((t.2.map (featureSize features)).sum : ℕ) : K) = 0
    · have hN' : (t.2.map (featureSize features)).sum = 0 := by exact_mod_cast hN
      have h5 : (t.2.map F).prod = 0 := by
        obtain ⟨f, hf⟩ := List.exists_mem_of_ne_nil _ (hne t ht)
        apply List.prod_eq_zero
        rw [List.mem_map]
        refine ⟨f, hf, ?_⟩
        have h6 : featureSize features f = 0 := by
          have := List.single_le_sum (l := t.2.map (featureSize features)) (fun _ _ => Nat.zero_le _)
            (featureSize features f) (List.mem_map.2 ⟨f, hf, rfl⟩)
          omega
        have h7 : features.getD f [] = [] := by
          apply List.eq_nil_iff_forall_not_mem.2
          intro s hs
          have := hsize f s hs
          omega
        rw [hF f, featV, h7]; rfl
      rw [h5, mul_zero, mul_zero, mul_zero]
    · rw [← mul_assoc, div_mul_cancel₀ _ hN]
  rw [← sum_map_congr _ _ _ h2, ← h1]
  refine sum_map_congr _ _ _ ?_
  intro b hb
  have := (gt_sums isConj target n features poly (fun i => 2 * c i) F a b.ilocNoconj (hB b hb).1
    b.iloc (fun f s hs q hq => (hB b hb).2 q ((hfeat f).lt s hs q hq))).1
  rw [this]
  rfl

end Conj

end Verif.Mlp
