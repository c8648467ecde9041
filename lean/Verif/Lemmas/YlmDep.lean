import Verif.Model.YlmDep
import Verif.Lemmas.MlpYlm

/-!
# Lemmas on the older spherical harmonics
-/

namespace Verif.Mlp
open Real Verif.Spec.Ylm

/-- The coefficients of the recurrence. -/
noncomputable def coefA (l m : ℕ) : ℝ := √((4.0 * ((l : ℝ) * l) - 1.0) / ((l : ℝ) * l - (m : ℝ) * m))

/-- The coefficients of the recurrence. -/
noncomputable def coefB (l m : ℕ) : ℝ :=
  -√((((l : ℝ) - 1) * ((l : ℝ) - 1) - (m : ℝ) * m) / (4.0 * (((l : ℝ) - 1) * ((l : ℝ) - 1)) - 1.0))

theorem ab_row (k j : ℕ) (hj : j ≤ k + 1) (ab : (ℕ → ℝ) × (ℕ → ℝ)) (l m : ℕ) (h : m ≤ l) :
    let r := (List.range j).foldl (fun (ab : (ℕ → ℝ) × (ℕ → ℝ)) (m : ℕ) =>
      (put ab.1 (lm2i (k + 2) m) (coefA (k + 2) m), put ab.2 (lm2i (k + 2) m) (coefB (k + 2) m))) ab
    r.1 (lm2i l m) = (if l = k + 2 ∧ m < j then coefA (k + 2) m else ab.1 (lm2i l m)) ∧
      r.2 (lm2i l m) = (if l = k + 2 ∧ m < j then coefB (k + 2) m else ab.2 (lm2i l m)) := by
  induction j with
  | zero => simp
  | succ j ih =>
    have ih := ih (by omega)
    rw [List.range_succ, List.foldl_append, List.foldl_cons, List.foldl_nil]
    dsimp only at ih ⊢
    rw [put_lm _ (by omega) h, put_lm _ (by omega) h, ih.1, ih.2]
    by_cases e : l = k + 2 ∧ m = j
    · obtain ⟨rfl, rfl⟩ := e
      simp
    · have e' : (l = k + 2 ∧ m < j + 1) ↔ (l = k + 2 ∧ m < j) := by omega
      rw [if_neg e, if_neg e]
      simp only [e', and_self]

theorem depAB_eq (lmax l m : ℕ) (hm : m + 2 ≤ l) (hl : l ≤ lmax) :
    (depAB lmax).1 (lm2i l m) = coefA l m ∧ (depAB lmax).2 (lm2i l m) = coefB l m := by
  have key : ∀ k, m + 2 ≤ l → l ≤ k + 1 →
      let r := (List.range' 2 k).foldl (fun ab (l : ℕ) => (List.range (l - 1)).foldl
        (fun (ab : (ℕ → ℝ) × (ℕ → ℝ)) (m : ℕ) =>
          (put ab.1 (lm2i l m) (coefA l m), put ab.2 (lm2i l m) (coefB l m))) ab)
        ((fun _ => 0 : ℕ → ℝ), (fun _ => 0 : ℕ → ℝ))
      r.1 (lm2i l m) = coefA l m ∧ r.2 (lm2i l m) = coefB l m := by
    intro k
    induction k with
    | zero => intro a b; omega
    | succ k ih =>
      intro a b
      rw [List.range'_concat, List.foldl_append, List.foldl_cons, List.foldl_nil, show 2 + 1 * k = k + 2 by ring]
      have := ab_row k (k + 1) le_rfl ((List.range' 2 k).foldl (fun ab (l : ℕ) => (List.range (l - 1)).foldl
        (fun (ab : (ℕ → ℝ) × (ℕ → ℝ)) (m : ℕ) =>
          (put ab.1 (lm2i l m) (coefA l m), put ab.2 (lm2i l m) (coefB l m))) ab)
        ((fun _ => 0 : ℕ → ℝ), (fun _ => 0 : ℕ → ℝ))) l m (by omega)
      refine ⟨this.1.trans ?_, this.2.trans ?_⟩
      · by_cases e : l = k + 2
        · subst e; rw [if_pos ⟨rfl, by omega⟩]
        · rw [if_neg (by omega)]; exact (ih a (by omega)).1
      · by_cases e : l = k + 2
        · subst e; rw [if_pos ⟨rfl, by omega⟩]
        · rw [if_neg (by omega)]; exact (ih a (by omega)).2
  exact key (lmax - 1) hm (by omega)

/-- One row of the table. -/
theorem depRow_eq {t s : ℝ} {F : ℕ → ℕ → ℝ} (hF : Recur t s F) (lmax m0 k : ℕ) (hk : k + 2 ≤ lmax) (hm0 : m0 ≤ 1)
    (h0 : m0 = 1 → ∀ l, F l 0 = 0) (st : ℝ × (ℕ → ℝ)) (h1 : st.1 = F (k + 1) (k + 1))
    (h2 : ∀ l m, m ≤ l → st.2 (lm2i l m) = if l ≤ k + 1 then F l m else 0) :
    (depRow (depAB lmax) t s m0 st (k + 2)).1 = F (k + 2) (k + 2) ∧
      ∀ l m, m ≤ l → (depRow (depAB lmax) t s m0 st (k + 2)).2 (lm2i l m) = if l ≤ k + 2 then F l m else 0 := by
  have hd := hF.diag (k + 1) (by omega)
  have hn := hF.next (k + 1) (by omega)
  have ht : st.1 * (-√(1.0 + 0.5 / ((k + 2 : ℕ) : ℝ)) * s) = F (k + 2) (k + 2) := by
    rw [h1, hd]; ring
  have inner : ∀ j, m0 + j ≤ k + 1 → ∀ l m, m ≤ l →
      ((List.range' m0 j).foldl (fun p m => put p (lm2i (k + 2) m)
        ((depAB lmax).1 (lm2i (k + 2) m) * (t * p (lm2i (k + 1) m) + (depAB lmax).2 (lm2i (k + 2) m) * p (lm2i k m))))
          st.2) (lm2i l m) = if l ≤ k + 1 ∨ (l = k + 2 ∧ m0 ≤ m ∧ m < m0 + j) then F l m else 0 := by
    intro j
    induction j with
    | zero =>
      intro _ l m h
      rw [List.range'_zero, List.foldl_nil, h2 l m h]
      congr 1
      simp only [eq_iff_iff]
      omega
    | succ j ih =>
      intro hj l m h
      have ih := ih (by omega)
      rw [List.range'_concat, List.foldl_append, List.foldl_cons, List.foldl_nil]
      generalize (List.range' m0 j).foldl _ st.2 = p' at ih ⊢
      rw [show m0 + 1 * j = m0 + j by ring, put_lm _ (by omega) h]
      by_cases e : l = k + 2 ∧ m = m0 + j
      · obtain ⟨rfl, rfl⟩ := e
        obtain ⟨ea, eb⟩ := depAB_eq lmax (k + 2) (m0 + j) (by omega) hk
        rw [if_pos ⟨rfl, rfl⟩, if_pos (by omega), ih (k + 1) (m0 + j) (by omega), if_pos (by omega),
          ih k (m0 + j) (by omega), if_pos (by omega), ea, eb, hF.inner k (m0 + j) (by omega)]
        rfl
      · rw [if_neg e, ih l m h]
        congr 1
        simp only [eq_iff_iff]
        omega
  have inner := inner (k + 1 - m0) (by omega)
  unfold depRow
  dsimp only
  rw [show k + 2 - 1 = k + 1 from rfl, show k + 2 - 2 = k from rfl]
  refine ⟨ht, fun l m h => ?_⟩
  rw [put_lm _ le_rfl h, put_lm _ (by omega) h, inner l m h, ht]
  by_cases e1 : l = k + 2 ∧ m = k + 2
  · obtain ⟨rfl, rfl⟩ := e1
    simp
  · rw [if_neg e1]
    by_cases e2 : l = k + 2 ∧ m = k + 1
    · obtain ⟨rfl, rfl⟩ := e2
      rw [if_pos ⟨rfl, rfl⟩, if_pos le_rfl, h1, hn]
      ring
    · rw [if_neg e2]
      by_cases e3 : l = k + 2 ∧ m < m0
      · obtain ⟨rfl, e3⟩ := e3
        obtain rfl : m = 0 := by omega
        rw [if_neg (by omega), if_pos le_rfl, h0 (by omega)]
      · congr 1
        simp only [eq_iff_iff]
        omega

theorem depLoop_eq {t s : ℝ} {F : ℕ → ℕ → ℝ} (hF : Recur t s F) (lmax m0 : ℕ) (hm0 : m0 ≤ 1)
    (h0 : m0 = 1 → ∀ l, F l 0 = 0) (st : ℝ × (ℕ → ℝ)) (h1 : st.1 = F 1 1)
    (h2 : ∀ l m, m ≤ l → st.2 (lm2i l m) = if l ≤ 1 then F l m else 0) (l m : ℕ) (h : m ≤ l) (hl : l ≤ lmax)
    (hl1 : 1 ≤ lmax) :
    ((List.range' 2 (lmax - 1)).foldl (depRow (depAB lmax) t s m0) st).2 (lm2i l m) = F l m := by
  have key : ∀ k, k + 1 ≤ lmax →
      ((List.range' 2 k).foldl (depRow (depAB lmax) t s m0) st).1 = F (k + 1) (k + 1) ∧
      ∀ l m, m ≤ l → ((List.range' 2 k).foldl (depRow (depAB lmax) t s m0) st).2 (lm2i l m)
        = if l ≤ k + 1 then F l m else 0 := by
    intro k
    induction k with
    | zero => intro _; exact ⟨h1, h2⟩
    | succ k ih =>
      intro hk
      obtain ⟨i1, i2⟩ := ih (by omega)
      rw [List.range'_concat, List.foldl_append, List.foldl_cons, List.foldl_nil, show 2 + 1 * k = k + 2 by ring]
      exact depRow_eq hF lmax m0 k (by omega) hm0 h0 _ i1 i2
  rw [(key (lmax - 1) (by omega)).2 l m h, if_pos (by omega)]

theorem depP_eq (lmax : ℕ) (t : ℝ) (l m : ℕ) (h : m ≤ l) (hl : l ≤ lmax) : depP lmax t (lm2i l m) = legP lmax t (lm2i l m) := by
  rw [legP_eq lmax t l m h hl]
  unfold depP
  by_cases h0 : lmax = 0
  · subst h0
    obtain ⟨rfl, rfl⟩ : l = 0 ∧ m = 0 := by omega
    rw [if_pos rfl]
    simp [plm, nrm, legendreD, legendre, put, lm2i]
  · rw [if_neg h0]
    have h11 : sqrtInv2Pi * (-√(3 / 2) * √(1.0 - t * t)) = plm t √(1.0 - t * t) 1 1 := by
      simp [plm, nrm_one, legendreD, legendre]
      ring
    refine depLoop_eq (plm_recur t _) lmax 0 (by omega) (by omega) _ h11 ?_ l m h hl (by omega)
    intro l m h
    dsimp only
    rw [put_lm _ le_rfl h, put_lm _ (by decide) h, put_lm _ le_rfl h]
    by_cases h1 : l ≤ 1
    · rw [if_pos h1]
      rcases lm_le_one h h1 with ⟨rfl, rfl⟩ | ⟨rfl, rfl⟩ | ⟨rfl, rfl⟩
      · simp [plm, nrm, legendreD, legendre]
      · simp [plm, nrm_zero, legendreD, legendre]
        norm_num
        ring
      · rw [if_pos ⟨rfl, rfl⟩, h11]
    · rw [if_neg (by omega), if_neg (by omega), if_neg (by omega), if_neg h1]

theorem depQ_eq (lmax : ℕ) (t : ℝ) (l m : ℕ) (h : m ≤ l) (hl : l ≤ lmax) : depQ lmax t (lm2i l m) = legQ lmax t (lm2i l m) := by
  rw [legQ_eq lmax t l m h hl]
  unfold depQ
  by_cases h0 : lmax = 0
  · subst h0
    obtain ⟨rfl, rfl⟩ : l = 0 ∧ m = 0 := by omega
    rw [if_pos rfl]
    simp [qlm]
  · rw [if_neg h0]
    have h11 : -√(3 / (4 * π)) = qlm t √(1.0 - t * t) 1 1 := by
      have : √(3 / (4 * π)) = sqrtInv2Pi * √(3 / 2) := by
        unfold sqrtInv2Pi
        rw [← sqrt_mul (by positivity)]
        congr 1
        field_simp
        norm_num
      simp [qlm, nrm_one, legendreD, legendre, this]
    refine depLoop_eq (qlm_recur t _) lmax 1 le_rfl (fun _ l => by simp [qlm]) _ h11 ?_ l m h hl (by omega)
    intro l m h
    dsimp only
    rw [put_lm _ le_rfl h]
    by_cases h1 : l ≤ 1
    · rw [if_pos h1]
      rcases lm_le_one h h1 with ⟨rfl, rfl⟩ | ⟨rfl, rfl⟩ | ⟨rfl, rfl⟩
      · simp [qlm]
      · simp [qlm]
      · rw [if_pos ⟨rfl, rfl⟩, h11]
    · rw [if_neg (by omega), if_neg h1]

/-- The two programs for values agree. -/
theorem depYlm_eq (lmax : ℕ) (t φ : ℝ) (l m : ℕ) (h : m ≤ l) (hl : l ≤ lmax) :
    depYlm lmax t φ (lm2iNeg l m) = computeYlm lmax t (cos φ) (sin φ) (lm2iNeg l m) := by
  have k1 := loops_get (fun o : ℕ → Cx ℝ => o)
    (fun y l => put y (lm2iNeg l 0) ⟨legP lmax t (lm2i l 0) * 0.5 * √2, 0⟩)
    (fun a mp y l => put y (lm2iNeg l mp)
      (Cx.smul (a.sign * legP lmax t (lm2i l mp) * 0.5 * √2) ⟨a.c1, -a.s1⟩))
    (fun l => ⟨legP lmax t (lm2i l 0) * 0.5 * √2, 0⟩)
    (fun a mp l => Cx.smul (a.sign * legP lmax t (lm2i l mp) * 0.5 * √2) ⟨a.c1, -a.s1⟩)
    (fun _ _ => rfl) (fun _ _ _ _ => rfl) (fun _ => 0) lmax (Azim.step (2.0 * cos φ)) Azim.flip
    (Azim.start (cos φ) (sin φ)) l m h hl
  have k2 := loops_get (fun o : ℕ → Cx ℝ => o)
    (fun y l => put y (lm2iNeg l 0) ⟨depP lmax t (lm2i l 0) * 0.5 * √2, 0⟩)
    (fun a mp y l => put y (lm2iNeg l mp)
      (Cx.smul (a.sign * depP lmax t (lm2i l mp) * 0.5 * √2) ⟨a.c1, -a.s1⟩))
    (fun l => ⟨depP lmax t (lm2i l 0) * 0.5 * √2, 0⟩)
    (fun a mp l => Cx.smul (a.sign * depP lmax t (lm2i l mp) * 0.5 * √2) ⟨a.c1, -a.s1⟩)
    (fun _ _ => rfl) (fun _ _ _ _ => rfl) (fun _ => 0) lmax (Azim.step (2.0 * cos φ)) Azim.flip
    (Azim.start (cos φ) (sin φ)) l m h hl
  have e1 : computeYlm lmax t (cos φ) (sin φ) (lm2iNeg l m) = _ := k1
  have e2 : depYlm lmax t φ (lm2iNeg l m) = _ := k2
  rw [e1, e2]
  simp only [depP_eq lmax t l 0 (Nat.zero_le _) hl, depP_eq lmax t l m h hl]

/-- The two programs for derivatives agree. -/
theorem depDer_eq (lmax : ℕ) (t φ r : ℝ) (l m : ℕ) (h : m ≤ l) (hl : l ≤ lmax) :
    (depDer lmax t φ r).dx (lm2iNeg l m) = (computeYlmDer lmax t (cos φ) (sin φ) r).dx (lm2iNeg l m) ∧
    (depDer lmax t φ r).dy (lm2iNeg l m) = (computeYlmDer lmax t (cos φ) (sin φ) r).dy (lm2iNeg l m) ∧
    (depDer lmax t φ r).dz (lm2iNeg l m) = (computeYlmDer lmax t (cos φ) (sin φ) r).dz (lm2iNeg l m) := by
  have hz : depQ lmax t (lm2i l 1) * √(1.0 - t * t) * (1.0 / r) * √(0.5 * l * (l + 1)) =
      legQ lmax t (lm2i l 1) * √(1.0 - t * t) * (1.0 / r) * √(0.5 * l * (l + 1)) := by
    by_cases h0 : l = 0
    · subst h0; simp
    · rw [depQ_eq lmax t l 1 (by omega) hl]
  have hq := depQ_eq lmax t l m h hl
  have hd : (if m ≠ l then (m : ℝ) * t * depQ lmax t (lm2i l m) +
        √(((l : ℝ) - m) * (l + m + 1)) * depQ lmax t (lm2i l (m + 1)) * √(1.0 - t * t)
        else (m : ℝ) * t * depQ lmax t (lm2i l m)) =
      (if m ≠ l then (m : ℝ) * t * legQ lmax t (lm2i l m) +
        √(((l : ℝ) - m) * (l + m + 1)) * legQ lmax t (lm2i l (m + 1)) * √(1.0 - t * t)
        else (m : ℝ) * t * legQ lmax t (lm2i l m)) := by
    by_cases e : m ≠ l
    · rw [if_pos e, if_pos e, hq, depQ_eq lmax t l (m + 1) (by omega) hl]
    · rw [if_neg e, if_neg e, hq]
  have G : ∀ (f : Ylm → ℕ → Cx ℝ) (vz : ℕ → Cx ℝ) (vg : Azim → ℕ → ℕ → Cx ℝ),
      (∀ o l, f (ylmZero (legP lmax t) (legQ lmax t) t √(1.0 - t * t) (cos φ) (sin φ) (1.0 / r) o l) =
        put (f o) (lm2iNeg l 0) (vz l)) →
      (∀ a mp o l, f (ylmNeg (legP lmax t) (legQ lmax t) t √(1.0 - t * t) (cos φ) (sin φ) (1.0 / r) a mp o l) =
        put (f o) (lm2iNeg l mp) (vg a mp l)) →
      f (computeYlmDer lmax t (cos φ) (sin φ) r) (lm2iNeg l m) = if m = 0 then vz l else
        vg (Azim.step (2.0 * cos φ) ((Azim.flip ∘ Azim.step (2.0 * cos φ))^[m - 1] (Azim.start (cos φ) (sin φ)))) m l := by
    intro f vz vg h1 h2
    exact loops_get f _ _ vz vg h1 h2 ⟨fun _ => 0, fun _ => 0, fun _ => 0, fun _ => 0⟩ lmax
      (Azim.step (2.0 * cos φ)) Azim.flip (Azim.start (cos φ) (sin φ)) l m h hl
  have D : ∀ (f : Der3 → ℕ → Cx ℝ) (vz : ℕ → Cx ℝ) (vg : Azim → ℕ → ℕ → Cx ℝ),
      (∀ o l, f (depZero (depQ lmax t) t √(1.0 - t * t) (cos φ) (sin φ) (1.0 / r) o l) =
        put (f o) (lm2iNeg l 0) (vz l)) →
      (∀ a mp o l, f (depNeg (depQ lmax t) t √(1.0 - t * t) (cos φ) (sin φ) (1.0 / r) a mp o l) =
        put (f o) (lm2iNeg l mp) (vg a mp l)) →
      f (depDer lmax t φ r) (lm2iNeg l m) = if m = 0 then vz l else
        vg (Azim.step (2.0 * cos φ) ((Azim.flip ∘ Azim.step (2.0 * cos φ))^[m - 1] (Azim.start (cos φ) (sin φ)))) m l := by
    intro f vz vg h1 h2
    exact loops_get f _ _ vz vg h1 h2 ⟨fun _ => 0, fun _ => 0, fun _ => 0⟩ lmax
      (Azim.step (2.0 * cos φ)) Azim.flip (Azim.start (cos φ) (sin φ)) l m h hl
  refine ⟨?_, ?_, ?_⟩
  · rw [G Ylm.dx _ _ (fun _ _ => rfl) (fun _ _ _ _ => rfl), D Der3.dx _ _ (fun _ _ => rfl) (fun _ _ _ _ => rfl)]
    rw [hz, hd, hq]
  · rw [G Ylm.dy _ _ (fun _ _ => rfl) (fun _ _ _ _ => rfl), D Der3.dy _ _ (fun _ _ => rfl) (fun _ _ _ _ => rfl)]
    rw [hz, hd, hq]
  · rw [G Ylm.dz _ _ (fun _ _ => rfl) (fun _ _ _ _ => rfl), D Der3.dz _ _ (fun _ _ => rfl) (fun _ _ _ _ => rfl)]
    rw [hz, hd]

end Verif.Mlp
