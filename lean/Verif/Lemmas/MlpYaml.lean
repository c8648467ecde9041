import Verif.Model.MlpYaml
import Verif.Lemmas.Py
import Verif.Lemmas.Dict
import Mathlib.Tactic.Linarith
import Mathlib.Tactic.FieldSimp
import Mathlib.Tactic.Ring
import Mathlib.Tactic.NormNum
import Mathlib.Tactic.Positivity

/-!
# Lemmas on potential files
-/

namespace Verif.MlpYaml
open Verif.Params

/-! ## Digits -/

theorem showNat_digit (n : ℕ) : ∀ c ∈ showNat n, c.isDigit = true := fun _ hc =>
  Nat.isDigit_of_mem_toDigits (by decide) (by decide) hc

theorem showNat_ne_nil (n : ℕ) : showNat n ≠ [] := Nat.toDigits_ne_nil

theorem showNat_value (n : ℕ) : Nat.ofDigitChars 10 (showNat n) 0 = n := Nat.ofDigitChars_ten_toDigits

theorem showNat_head (n : ℕ) : showNat n = ['0'] ∨ (showNat n).head? ≠ some '0' := by
  induction n using Nat.strong_induction_on with
  | _ n ih =>
    by_cases h : n < 10
    · unfold showNat
      rw [Nat.toDigits_of_lt_base h]
      have : ∀ m < 10, [Nat.digitChar m] = ['0'] ∨ [Nat.digitChar m].head? ≠ some '0' := by decide
      exact this n h
    · right
      have e : showNat n = showNat (n / 10) ++ showNat (n % 10) := by
        unfold showNat
        rw [Nat.toDigits_of_base_le (by decide) (by omega), Nat.toDigits_of_lt_base (b := 10)
          (n := n % 10) (by omega)]
      rw [e, List.head?_append]
      rcases ih (n / 10) (by omega) with h1 | h1
      · exfalso
        have h2 := showNat_value (n / 10)
        rw [h1] at h2
        have : n / 10 = 0 := by rw [← h2]; rfl
        omega
      · cases h2 : (showNat (n / 10)).head? with
        | none => exact absurd (List.head?_eq_none_iff.1 h2) (showNat_ne_nil _)
        | some c => rw [h2] at h1; simpa using h1

theorem takeSign_of_ne {t : Txt} (h : ∀ c, t.head? = some c → c ≠ '-' ∧ c ≠ '+') :
    takeSign t = (none, t) := by
  cases t with
  | nil => rfl
  | cons c r =>
    have := h c rfl
    simp [takeSign, this.1, this.2]

theorem digit_ne {c : Char} (h : c.isDigit = true) {d : Char} (hd : d.isDigit = false) : c ≠ d := by
  rintro rfl
  rw [h] at hd
  cases hd

theorem takeSign_digits {t : Txt} (h : ∀ c ∈ t, c.isDigit = true) : takeSign t = (none, t) := by
  apply takeSign_of_ne
  intro c hc
  have := h c (List.mem_of_mem_head? hc)
  exact ⟨digit_ne this (by decide), digit_ne this (by decide)⟩

theorem takeWhile_digits {t r : Txt} (h : ∀ c ∈ t, c.isDigit = true)
    (hr : ∀ c, r.head? = some c → c.isDigit = false) :
    (t ++ r).takeWhile Char.isDigit = t ∧ (t ++ r).dropWhile Char.isDigit = r := by
  induction t with
  | nil =>
    cases r with
    | nil => simp
    | cons c r => simp [hr c rfl]
  | cons c t ih =>
    have := ih fun d hd => h d (by simp [hd])
    simp [h c (by simp), this.1, this.2]

theorem scan_showNat (n : ℕ) : scan (showNat n) = some ⟨false, showNat n, false, [], none⟩ := by
  have h := takeWhile_digits (showNat_digit n) (r := []) (by simp)
  rw [List.append_nil] at h
  unfold scan
  simp only [takeSign_digits (showNat_digit n), h.1, h.2]
  simp [takeFrac, takeExp, showNat_ne_nil]

theorem not_word {t : Txt} {ws : List String}
    (hw : ∀ w ∈ ws.map String.toList, ∀ c, w.head? = some c → c.isDigit = false ∧ c ≠ '-')
    (he : ∀ w ∈ ws.map String.toList, w = [] → False)
    (ht : ∃ c, t.head? = some c ∧ (c.isDigit = true ∨ c = '-')) : String.ofList t ∉ ws := by
  intro h
  have h1 : t ∈ ws.map String.toList := List.mem_map.2 ⟨_, h, String.toList_ofList⟩
  obtain ⟨c, h2, h3⟩ := ht
  have h4 := hw t h1 c h2
  rcases h3 with h3 | h3
  · rw [h3] at h4; cases h4.1
  · exact h4.2 h3

theorem resolve_number {t : Txt} (ht : ∃ c, t.head? = some c ∧ (c.isDigit = true ∨ c = '-')) :
    resolve t = match scan t with
    | none => .str (String.ofList t)
    | some n =>
      if isFloat n then .float n.value
      else if isInt n then .int (if n.neg then -(Nat.ofDigitChars 10 n.int 0 : ℤ)
        else Nat.ofDigitChars 10 n.int 0)
      else .str (String.ofList t) := by
  unfold resolve
  dsimp only
  have key : ∀ ws : List String, (∀ w ∈ ws.map String.toList, w ≠ [] ∧
      ∀ c, w.head? = some c → c.isDigit = false ∧ c ≠ '-') → String.ofList t ∉ ws := fun ws hw =>
    not_word (fun w h => (hw w h).2) (fun w h => (hw w h).1) ht
  have e1 : ∀ ws : List String, (ws.map String.toList).all (fun w => w != [] &&
      w.head?.all fun c => !c.isDigit && c != '-') = true → String.ofList t ∉ ws := by
    intro ws hw
    apply key
    intro w hm
    have := List.all_eq_true.1 hw w hm
    simp only [Bool.and_eq_true, bne_iff_ne, Option.all_eq_true, Bool.not_eq_true',
      Option.mem_def] at this
    exact ⟨this.1, fun c hc => this.2 c hc⟩
  have e2 : String.ofList t ∉ nullWords := by
    intro h
    have h1 : t ∈ nullWords.map String.toList := List.mem_map.2 ⟨_, h, String.toList_ofList⟩
    obtain ⟨c, h2, h3⟩ := ht
    have : ∀ w ∈ nullWords.map String.toList, w.head?.all (fun c => !c.isDigit && c != '-') = true := by
      decide
    have := this t h1
    rw [h2] at this
    rcases h3 with h3 | h3 <;> simp [h3] at this
  rw [if_neg (e1 _ (by decide)), if_neg (e1 _ (by decide)), if_neg e2]
  rfl

theorem resolve_showNat (n : ℕ) : resolve (showNat n) = .int n := by
  rw [resolve_number, scan_showNat]
  · have h : isInt ⟨false, showNat n, false, [], none⟩ = true := by
      rcases showNat_head n with h | h
      · simp [isInt, h]
      · simp [isInt, h]
    simp only [isFloat, Bool.false_and, h]
    simp [showNat_value]
  · cases hs : showNat n with
    | nil => exact absurd hs (showNat_ne_nil n)
    | cons c r => exact ⟨c, rfl, Or.inl (showNat_digit n c (by rw [hs]; simp))⟩

theorem asNat_showNat (n : ℕ) : asNat (resolve (showNat n)) = .ok n := by
  rw [resolve_showNat]
  simp [asNat]

theorem stoi_showNat (n : ℕ) : stoi (showNat n) = .ok (n : ℤ) := by
  have h := takeWhile_digits (showNat_digit n) (r := []) (by simp)
  rw [List.append_nil] at h
  unfold stoi
  simp only [takeSign_digits (showNat_digit n), h.1, showNat_value]
  simp [showNat_ne_nil]

/-! ## Sixteen significant digits -/

theorem log_bounds {x : ℚ} (hx : 0 < x) :
    (10 : ℚ) ^ Int.log 10 x ≤ x ∧ x < (10 : ℚ) ^ (Int.log 10 x + 1) := by
  constructor
  · exact_mod_cast Int.zpow_log_le_self (b := 10) (by decide) hx
  · exact_mod_cast Int.lt_zpow_succ_log_self (b := 10) (by decide) x

theorem log_unique {x : ℚ} {e : ℤ} (hx : 0 < x) (h1 : (10 : ℚ) ^ e ≤ x) (h2 : x < (10 : ℚ) ^ (e + 1)) :
    Int.log 10 x = e := by
  obtain ⟨g1, g2⟩ := log_bounds hx
  have a := (zpow_lt_zpow_iff_right₀ (by norm_num : (1 : ℚ) < 10)).1 (h1.trans_lt g2)
  have b := (zpow_lt_zpow_iff_right₀ (by norm_num : (1 : ℚ) < 10)).1 (g1.trans_lt h2)
  omega

/-- The value of `m · 10^(e-15)`. -/
def sigValue (p : ℕ × ℤ) : ℚ := p.1 * (10 : ℚ) ^ (p.2 - 15)

theorem ten_zpow (a b : ℤ) : (10 : ℚ) ^ a * (10 : ℚ) ^ b = (10 : ℚ) ^ (a + b) :=
  (zpow_add₀ (by norm_num) a b).symm

theorem sig16_spec {x : ℚ} (hx : 0 < x) :
    10 ^ 15 ≤ (sig16 x).1 ∧ (sig16 x).1 < 10 ^ 16 ∧
      |sigValue (sig16 x) - x| ≤ x / (2 * 10 ^ 15) := by
  obtain ⟨g1, g2⟩ := log_bounds hx
  unfold sig16
  dsimp only
  set e := Int.log 10 x
  set y := x * (10 : ℚ) ^ (15 - e) with hy
  have hp : ∀ k : ℤ, (0 : ℚ) < 10 ^ k := fun k => zpow_pos (by norm_num) k
  have y1 : ((10 ^ 15 : ℤ) : ℚ) ≤ y := by
    have := mul_le_mul_of_nonneg_right g1 (hp (15 - e)).le
    rw [ten_zpow, show e + (15 - e) = 15 by ring] at this
    push_cast
    exact_mod_cast this
  have y2 : y < ((10 ^ 16 : ℤ) : ℚ) := by
    have := mul_lt_mul_of_pos_right g2 (hp (15 - e))
    rw [ten_zpow, show e + 1 + (15 - e) = 16 by ring] at this
    push_cast
    exact_mod_cast this
  have r1 := int_le_roundHalfEven y1
  have r2 := roundHalfEven_le_int y2.le
  have err := (roundHalfEven_spec y).1
  have hx' : x = y * (10 : ℚ) ^ (e - 15) := by
    rw [hy, mul_assoc, ten_zpow, show 15 - e + (e - 15) = 0 by ring, zpow_zero, mul_one]
  set m := roundHalfEven y with hm
  have hmn : ((m.toNat : ℕ) : ℚ) = (m : ℚ) := by
    have : ((m.toNat : ℕ) : ℤ) = m := Int.toNat_of_nonneg (by linarith [show (0:ℤ) ≤ 10 ^ 15 by norm_num])
    exact_mod_cast this
  have hbound : |(m : ℚ) * (10 : ℚ) ^ (e - 15) - x| ≤ x / (2 * 10 ^ 15) := by
    rw [hx', ← sub_mul, abs_mul, abs_of_pos (hp (e - 15))]
    have h2 : (1 : ℚ) / 2 ≤ y / (2 * 10 ^ 15) := by
      rw [div_le_div_iff₀ (by norm_num) (by norm_num)]
      push_cast at y1
      linarith
    calc |(m : ℚ) - y| * (10 : ℚ) ^ (e - 15) ≤ (y / (2 * 10 ^ 15)) * (10 : ℚ) ^ (e - 15) :=
          mul_le_mul_of_nonneg_right (err.trans h2) (hp _).le
      _ = y * (10 : ℚ) ^ (e - 15) / (2 * 10 ^ 15) := by ring
  split
  · rename_i h
    refine ⟨le_refl _, by norm_num, ?_⟩
    have hm' : (m : ℚ) = 10 ^ 16 := by
      rw [← hmn, h]
      norm_num
    rw [hm'] at hbound
    unfold sigValue
    dsimp only
    have : ((10 ^ 15 : ℕ) : ℚ) * (10 : ℚ) ^ (e + 1 - 15) = 10 ^ 16 * (10 : ℚ) ^ (e - 15) := by
      rw [show e + 1 - 15 = 1 + (e - 15) by ring, ← ten_zpow]
      rw [zpow_one]
      norm_num
      ring
    rw [this]
    exact hbound
  · rename_i h
    refine ⟨?_, ?_, ?_⟩
    · dsimp only
      zify
      rw [Int.toNat_of_nonneg (by linarith [show (0:ℤ) ≤ 10 ^ 15 by norm_num])]
      exact r1
    · dsimp only
      have h3 : (m.toNat : ℤ) ≤ 10 ^ 16 := by
        rw [Int.toNat_of_nonneg (by linarith [show (0:ℤ) ≤ 10 ^ 15 by norm_num])]
        exact r2
      have h4 : m.toNat ≤ 10 ^ 16 := by exact_mod_cast h3
      omega
    · unfold sigValue
      dsimp only
      rw [hmn]
      exact hbound

theorem sig16_sigValue {m : ℕ} {e : ℤ} (h1 : 10 ^ 15 ≤ m) (h2 : m < 10 ^ 16) :
    sig16 (sigValue (m, e)) = (m, e) := by
  have hp : ∀ k : ℤ, (0 : ℚ) < 10 ^ k := fun k => zpow_pos (by norm_num) k
  have q1 : ((10 : ℚ) ^ (15 : ℤ)) ≤ (m : ℚ) := by exact_mod_cast h1
  have q2 : (m : ℚ) < ((10 : ℚ) ^ (16 : ℤ)) := by exact_mod_cast h2
  have b1 : (10 : ℚ) ^ e ≤ sigValue (m, e) := by
    have := mul_le_mul_of_nonneg_right q1 (hp (e - 15)).le
    rw [ten_zpow, show (15 : ℤ) + (e - 15) = e by ring] at this
    exact this
  have b2 : sigValue (m, e) < (10 : ℚ) ^ (e + 1) := by
    have := mul_lt_mul_of_pos_right q2 (hp (e - 15))
    rw [ten_zpow, show (16 : ℤ) + (e - 15) = e + 1 by ring] at this
    exact this
  have hl := log_unique ((hp e).trans_le b1) b1 b2
  unfold sig16
  dsimp only
  rw [hl]
  have hv : sigValue (m, e) * (10 : ℚ) ^ (15 - e) = ((m : ℤ) : ℚ) := by
    unfold sigValue
    dsimp only
    rw [mul_assoc, ten_zpow, show e - 15 + (15 - e) = 0 by ring, zpow_zero, mul_one]
    simp
  rw [hv, roundHalfEven_intCast, Int.toNat_natCast, if_neg (by omega)]

/-- `x` rounded to sixteen significant digits. -/
def roundE (x : ℚ) : ℚ :=
  if x = 0 then 0 else (if x < 0 then -1 else 1) * sigValue (sig16 |x|)

theorem sigValue_pos {x : ℚ} (hx : 0 < x) : 0 < sigValue (sig16 x) := by
  have h := (sig16_spec hx).1
  unfold sigValue
  have : (0 : ℚ) < (sig16 x).1 := by
    have : 0 < (sig16 x).1 := lt_of_lt_of_le (by norm_num) h
    exact_mod_cast this
  exact mul_pos this (zpow_pos (by norm_num) _)

theorem roundE_error (x : ℚ) : |roundE x - x| ≤ |x| / (2 * 10 ^ 15) := by
  unfold roundE
  split
  · rename_i h
    simp [h]
  · rename_i h
    have hp := abs_pos.2 h
    have := (sig16_spec hp).2.2
    split
    · rename_i h2
      have e : |x| = -x := abs_of_neg h2
      rw [show (-1 : ℚ) * sigValue (sig16 |x|) - x = -(sigValue (sig16 |x|) - |x|) by rw [e]; ring,
        abs_neg]
      exact this
    · rename_i h2
      have e : |x| = x := abs_of_nonneg (not_lt.1 h2)
      rw [one_mul]
      have e2 : sigValue (sig16 |x|) - x = sigValue (sig16 |x|) - |x| := by rw [e]
      rw [e2]
      exact this

theorem fmtE_roundE (x : ℚ) : fmtE (roundE x) = fmtE x := by
  by_cases h : x = 0
  · simp [roundE, h]
  · have hp := abs_pos.2 h
    have hs := sigValue_pos hp
    obtain ⟨h1, h2, _⟩ := sig16_spec hp
    have hid := sig16_sigValue (e := (sig16 |x|).2) h1 h2
    by_cases hn : x < 0
    · have e : roundE x = -sigValue (sig16 |x|) := by simp [roundE, h, hn]
      unfold fmtE
      rw [e, if_neg (by linarith), if_pos (by linarith), abs_neg, abs_of_pos hs, if_neg h, if_pos hn]
      rw [show sig16 (sigValue (sig16 |x|)) = sig16 |x| from hid]
    · have e : roundE x = sigValue (sig16 |x|) := by simp [roundE, h, hn]
      unfold fmtE
      rw [e, if_neg (by linarith), if_neg (by linarith), abs_of_pos hs, if_neg h, if_neg hn]
      rw [show sig16 (sigValue (sig16 |x|)) = sig16 |x| from hid]

/-- `roundE` is idempotent. -/
theorem roundE_idem (x : ℚ) : roundE (roundE x) = roundE x := by
  by_cases h : x = 0
  · simp [roundE, h]
  · have hp := abs_pos.2 h
    have hs := sigValue_pos hp
    obtain ⟨h1, h2, _⟩ := sig16_spec hp
    have hid : sig16 (sigValue (sig16 |x|)) = sig16 |x| :=
      sig16_sigValue (e := (sig16 |x|).2) h1 h2
    by_cases hn : x < 0
    · have e : roundE x = -sigValue (sig16 |x|) := by simp [roundE, h, hn]
      rw [e]
      unfold roundE
      rw [if_neg (by linarith), if_pos (by linarith), abs_neg, abs_of_pos hs, hid]
      ring
    · have e : roundE x = sigValue (sig16 |x|) := by simp [roundE, h, hn]
      rw [e]
      unfold roundE
      rw [if_neg (by linarith), if_neg (by linarith), abs_of_pos hs, hid]
      ring

/-! ## Reading a coefficient -/

theorem showExp_spec (e : ℤ) : ∃ ds : Txt, ds ≠ [] ∧ (∀ c ∈ ds, c.isDigit = true) ∧
    Nat.ofDigitChars 10 ds 0 = e.natAbs ∧ showExp e = (if e < 0 then '-' else '+') :: ds := by
  unfold showExp
  dsimp only
  by_cases hl : (showNat e.natAbs).length = 1
  · refine ⟨'0' :: showNat e.natAbs, by simp, ?_, ?_, by rw [if_pos hl]⟩
    · intro c hc
      rcases List.mem_cons.1 hc with rfl | hc
      · decide
      · exact showNat_digit _ c hc
    · rw [Nat.ofDigitChars_cons]
      simpa using showNat_value e.natAbs
  · exact ⟨_, showNat_ne_nil _, showNat_digit _, showNat_value _, by rw [if_neg hl]⟩

theorem showMant_spec (m : ℕ) (h1 : 10 ^ 15 ≤ m) (h2 : m < 10 ^ 16) : ∃ d ds, d.isDigit = true ∧
    (∀ c ∈ ds, c.isDigit = true) ∧ ds.length = 15 ∧ Nat.ofDigitChars 10 (d :: ds) 0 = m ∧
    showMant m = d :: '.' :: ds := by
  have hlen : (showNat m).length = 16 := by
    have a := (Nat.length_toDigits_le_iff (b := 10) (n := m) (k := 16) (by decide) (by decide)).2 h2
    have b := mt (Nat.length_toDigits_le_iff (b := 10) (n := m) (k := 15) (by decide) (by decide)).1
      (by omega)
    unfold showNat
    omega
  have hv := showNat_value m
  have hd := showNat_digit m
  cases hs : showNat m with
  | nil => rw [hs] at hlen; simp at hlen
  | cons d ds =>
    rw [hs] at hlen hv hd
    refine ⟨d, ds, hd d (by simp), fun c hc => hd c (by simp [hc]), by simpa using hlen, hv, ?_⟩
    simp [showMant, hs]

theorem scan_parts (neg : Bool) (d : Char) (ds es : Txt) (sg : Char) (hsg : sg = '-' ∨ sg = '+')
    (hd : d.isDigit = true) (hds : ∀ c ∈ ds, c.isDigit = true) (hes : ∀ c ∈ es, c.isDigit = true)
    (hne : es ≠ []) :
    scan ((if neg then ['-'] else []) ++ (d :: '.' :: ds) ++ 'e' :: sg :: es) =
      some ⟨neg, [d], true, ds, some (some (sg == '-'), es)⟩ := by
  have hs : takeSign ((if neg then ['-'] else []) ++ (d :: '.' :: ds) ++ 'e' :: sg :: es) =
      (if neg then some true else none, d :: '.' :: (ds ++ 'e' :: sg :: es)) := by
    cases neg
    · have := digit_ne hd (d := '-') (by decide)
      have := digit_ne hd (d := '+') (by decide)
      simp [takeSign, *]
    · simp [takeSign]
  have ht := takeWhile_digits (t := ds) (r := 'e' :: sg :: es) hds (by simp)
  unfold scan
  simp only [hs]
  have hpd : Char.isDigit '.' = false := by decide
  have hx : takeExp ('e' :: sg :: es) = some (some (some (sg == '-'), es)) := by
    rcases hsg with rfl | rfl <;> simp [takeExp, takeSign, hne] <;> exact hes
  simp only [List.takeWhile_cons, hd, hpd, List.dropWhile_cons, takeFrac, if_true, if_false,
    Bool.false_eq_true, ht.1, ht.2, hx]
  cases neg <;> simp

theorem scan_fmtE (x : ℚ) : ∃ n, scan (fmtE x) = some n ∧ isFloat n = true ∧ n.value = roundE x ∧
    ∃ c, (fmtE x).head? = some c ∧ (c.isDigit = true ∨ c = '-') := by
  by_cases h : x = 0
  · subst h
    refine ⟨⟨false, ['0'], true, "000000000000000".toList, some (some false, "00".toList)⟩,
      by decide +kernel, by decide, ?_, ⟨'0', by decide +kernel, by decide⟩⟩
    have : Nat.ofDigitChars 10 (['0'] ++ "000000000000000".toList) 0 = 0 := by decide
    simp only [Num.value, this, roundE]
    simp
  · have hp := abs_pos.2 h
    obtain ⟨h1, h2, _⟩ := sig16_spec hp
    obtain ⟨d, ds, hd, hds, hlen, hval, hm⟩ := showMant_spec _ h1 h2
    obtain ⟨es, hne, hes, heval, hexp⟩ := showExp_spec (sig16 |x|).2
    have hf : fmtE x = (if decide (x < 0) then ['-'] else []) ++ (d :: '.' :: ds) ++
        'e' :: (if (sig16 |x|).2 < 0 then '-' else '+') :: es := by
      unfold fmtE
      rw [if_neg h, hm, hexp]
      simp
    have hsc := scan_parts (decide (x < 0)) d ds es (if (sig16 |x|).2 < 0 then '-' else '+')
      (by split <;> simp) hd hds hes hne
    rw [← hf] at hsc
    refine ⟨_, hsc, by simp [isFloat], ?_, ?_⟩
    · unfold Num.value Num.expVal roundE sigValue
      simp only [List.singleton_append, hval, hlen, heval, if_neg h, Option.some.injEq, beq_iff_eq]
      have he : (if ((if (sig16 |x|).2 < 0 then '-' else '+') == '-') = true then
          -((sig16 |x|).2.natAbs : ℤ) else ((sig16 |x|).2.natAbs : ℤ)) = (sig16 |x|).2 := by
        by_cases h3 : (sig16 |x|).2 < 0
        · rw [if_pos h3, if_pos (by decide)]
          omega
        · rw [if_neg h3, if_neg (by decide)]
          omega
      simp only [beq_iff_eq] at he
      rw [he]
      by_cases hn : x < 0
      · simp [hn]
      · simp [hn]
    · rw [hf]
      by_cases hn : x < 0
      · exact ⟨'-', by simp [hn], Or.inr rfl⟩
      · exact ⟨d, by simp [hn], Or.inl hd⟩

theorem resolve_fmtE (x : ℚ) : resolve (fmtE x) = .float (roundE x) := by
  obtain ⟨n, h1, h2, h3, h4⟩ := scan_fmtE x
  rw [resolve_number h4, h1]
  simp [h2, h3]

theorem stod_fmtE (x : ℚ) : stod (fmtE x) = .ok (roundE x) := by
  obtain ⟨n, h1, _, h3, _⟩ := scan_fmtE x
  simp [stod, h1, orErr, Except.map, h3]

end Verif.MlpYaml
