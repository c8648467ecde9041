import Verif.Spec.Thermo
import Verif.Lemmas.Py
import Verif.Lemmas.Dict
import Mathlib.Data.List.Sort

/-!
# C74: thermodynamic data on a common grid

The helper lemmas come first.
-/

namespace Verif.Thermo

open Verif.Spec

/-! ### Counts -/

/-- A dictionary holds the counts `c` that are not zero. -/
def Counts {κ : Type} [DecidableEq κ] (d : Dict κ ℕ) (c : κ → ℕ) : Prop :=
  d.keys.Nodup ∧ ∀ k, d.get? k = if c k = 0 then none else some (c k)

theorem counts_bump {κ : Type} [DecidableEq κ] (d : Dict κ ℕ) (c : κ → ℕ) (k : κ) (h : Counts d c) :
    Counts (bump d k) (fun k' => c k' + if k' = k then 1 else 0) := by
  refine ⟨Dict.nodup_keys_set h.1 _ _, fun k' => ?_⟩
  unfold bump
  rw [Dict.get?_set, h.2 k, h.2 k']
  by_cases hk : k' = k
  · subst hk
    by_cases hc : c k' = 0 <;> simp [hc]
  · have : ¬ k = k' := fun e => hk e.symm
    simp [hk, this]

theorem counts_fold {κ α : Type} [DecidableEq κ] (p : α → Bool) (key : α → κ) (l : List α) (d : Dict κ ℕ) (c : κ → ℕ)
    (h : Counts d c) :
    Counts (l.foldl (fun d x => if p x then bump d (key x) else d) d)
      (fun k => c k + l.countP fun x => p x && decide (key x = k)) := by
  induction l generalizing d c with
  | nil => simpa using h
  | cons a l ih =>
    rw [List.foldl_cons]
    by_cases hp : p a = true
    · rw [if_pos hp]
      have := ih _ _ (counts_bump d c (key a) h)
      refine ⟨this.1, fun k => ?_⟩
      rw [this.2 k]
      have e : c k + (if k = key a then 1 else 0) + l.countP (fun x => p x && decide (key x = k)) =
          c k + (a :: l).countP (fun x => p x && decide (key x = k)) := by
        rw [List.countP_cons]
        by_cases hk : key a = k
        · subst hk
          simp [hp]
          omega
        · have hk' : ¬ k = key a := fun e => hk e.symm
          simp [hk, hk']
      simp only [e]
    · rw [if_neg hp]
      have := ih d c h
      refine ⟨this.1, fun k => ?_⟩
      rw [this.2 k]
      simp [List.countP_cons, hp]

theorem mem_iff_get? {κ : Type} [DecidableEq κ] (d : Dict κ ℕ) (h : d.keys.Nodup) (k : κ) (n : ℕ) :
    (k, n) ∈ d ↔ d.get? k = some n := by
  refine ⟨fun hm => ?_, fun hg => Dict.mem_of_get? hg⟩
  induction d with
  | nil => simp at hm
  | cons p d ih =>
    unfold Dict.keys at h
    rw [List.map_cons, List.nodup_cons] at h
    unfold Dict.get?
    by_cases hk : p.1 = k
    · rw [List.find?_cons_of_pos (by simpa using hk)]
      rcases List.mem_cons.1 hm with e | hm
      · rw [← e]
        rfl
      · exact absurd (List.mem_map_of_mem (f := Prod.fst) hm) (by rw [hk] at h; exact h.1)
    · rw [List.find?_cons_of_neg (by simpa using hk)]
      rcases List.mem_cons.1 hm with e | hm
      · rw [← e] at hk
        exact absurd rfl hk
      · exact ih h.2 hm

theorem counts_meet {κ : Type} [DecidableEq κ] (a b : Dict κ ℕ) (c1 c2 : κ → ℕ) (ha : Counts a c1) (hb : Counts b c2) :
    Counts (meet a b) (fun k => min (c1 k) (c2 k)) := by
  have hsub : ∀ a : Dict κ ℕ, (meet a b).keys.Sublist a.keys := by
    intro a
    induction a with
    | nil => simp [meet, Dict.keys]
    | cons p a ih =>
      unfold meet at ih ⊢
      rw [List.filterMap_cons]
      cases h : b.get? p.1 with
      | none => exact ih.trans (List.sublist_cons_self _ _)
      | some n => exact ih.cons_cons _
  have hn := (hsub a).nodup ha.1
  refine ⟨hn, fun k => Option.ext fun n => ?_⟩
  rw [← mem_iff_get? _ hn]
  unfold meet
  rw [List.mem_filterMap]
  constructor
  · rintro ⟨p, hp, h⟩
    have h1 := (mem_iff_get? a ha.1 p.1 p.2).1 hp
    rw [ha.2] at h1
    rw [hb.2] at h
    split_ifs at h1 h with h2 h3
    · simp at h
    · simp only [Option.map_some, Option.some.injEq, Prod.mk.injEq] at h h1
      obtain ⟨rfl, h⟩ := h
      have : ¬ min (c1 p.1) (c2 p.1) = 0 := by omega
      rw [if_neg this, ← h, ← h1]
      split_ifs <;> simp <;> omega
  · intro h
    dsimp only at h
    split_ifs at h with h2
    simp only [Option.some.injEq] at h
    have h3 : ¬ c1 k = 0 := by omega
    have h4 : ¬ c2 k = 0 := by omega
    refine ⟨(k, c1 k), (mem_iff_get? a ha.1 _ _).2 (by rw [ha.2, if_neg h3]), ?_⟩
    rw [hb.2, if_neg h4]
    simp only [Option.map_some, Option.some.injEq, Prod.mk.injEq, true_and]
    split_ifs <;> omega

/-- The datasets' data with a free energy at a key. -/
def hasF (d : Point) : Bool := (d.val .freeEnergy).isSome

theorem countSize_fst (data : List Point) : (countSize data).1 =
    data.foldl (fun c d => if hasF d then bump c (round3 (d.volume.getD 0)) else c) [] := by
  unfold countSize
  rw [show (([], []) : Dict ℚ ℕ × Dict ℤ ℕ) = ([], ([] : Dict ℤ ℕ)) from rfl]
  generalize ([] : Dict ℤ ℕ) = e
  generalize ([] : Dict ℚ ℕ) = d
  induction data generalizing d e with
  | nil => rfl
  | cons x l ih =>
    rw [List.foldl_cons, List.foldl_cons]
    by_cases h : hasF x = true
    · rw [if_pos h, if_pos (show (x.val .freeEnergy).isSome = true from h), ih]
    · rw [if_neg h, if_neg (show ¬ (x.val .freeEnergy).isSome = true from h), ih]

theorem countSize_snd (data : List Point) : (countSize data).2 =
    data.foldl (fun c d => if hasF d then bump c (roundHalfEven (d.temperature.getD 0)) else c) [] := by
  unfold countSize
  generalize ([] : Dict ℤ ℕ) = e
  generalize ([] : Dict ℚ ℕ) = d
  induction data generalizing d e with
  | nil => rfl
  | cons x l ih =>
    rw [List.foldl_cons, List.foldl_cons]
    by_cases h : hasF x = true
    · rw [if_pos h, if_pos (show (x.val .freeEnergy).isSome = true from h), ih]
    · rw [if_neg h, if_neg (show ¬ (x.val .freeEnergy).isSome = true from h), ih]

theorem counts_nil {κ : Type} [DecidableEq κ] : Counts ([] : Dict κ ℕ) (fun _ => 0) :=
  ⟨List.nodup_nil, fun _ => rfl⟩

/-- The number of points with a free energy at a volume. -/
def cntV (data : List Point) (v : ℚ) : ℕ := data.countP fun d => hasF d && decide (round3 (d.volume.getD 0) = v)

/-- The number of points with a free energy at a temperature. -/
def cntT (data : List Point) (t : ℤ) : ℕ :=
  data.countP fun d => hasF d && decide (roundHalfEven (d.temperature.getD 0) = t)

theorem counts_fst (data : List Point) : Counts (countSize data).1 (cntV data) := by
  rw [countSize_fst]
  have := counts_fold hasF (fun d : Point => round3 (d.volume.getD 0)) data [] _ counts_nil
  simp only [zero_add] at this
  exact this

theorem counts_snd (data : List Point) : Counts (countSize data).2 (cntT data) := by
  rw [countSize_snd]
  have := counts_fold hasF (fun d : Point => roundHalfEven (d.temperature.getD 0)) data [] _ counts_nil
  simp only [zero_add] at this
  exact this

theorem minimum_spec (first : List Point) (rest : List (List Point)) :
    ∃ cv ct, Counts (minimumSize (first :: rest)).1 cv ∧ Counts (minimumSize (first :: rest)).2 ct ∧
      (∀ v n, n ≤ cv v ↔ ∀ data ∈ first :: rest, n ≤ cntV data v) ∧
      ∀ t n, n ≤ ct t ↔ ∀ data ∈ first :: rest, n ≤ cntT data t := by
  have key : ∀ (rest : List (List Point)) (c : Dict ℚ ℕ × Dict ℤ ℕ) (cv : ℚ → ℕ) (ct : ℤ → ℕ), Counts c.1 cv →
      Counts c.2 ct → ∃ cv' ct',
        Counts (rest.foldl (fun c data => (meet c.1 (countSize data).1, meet c.2 (countSize data).2)) c).1 cv' ∧
        Counts (rest.foldl (fun c data => (meet c.1 (countSize data).1, meet c.2 (countSize data).2)) c).2 ct' ∧
        (∀ v n, n ≤ cv' v ↔ n ≤ cv v ∧ ∀ data ∈ rest, n ≤ cntV data v) ∧
        ∀ t n, n ≤ ct' t ↔ n ≤ ct t ∧ ∀ data ∈ rest, n ≤ cntT data t := by
    intro rest
    induction rest with
    | nil =>
      intro c cv ct h1 h2
      exact ⟨cv, ct, h1, h2, by simp, by simp⟩
    | cons a rest ih =>
      intro c cv ct h1 h2
      obtain ⟨cv', ct', g1, g2, g3, g4⟩ := ih (meet c.1 (countSize a).1, meet c.2 (countSize a).2) _ _
        (counts_meet _ _ _ _ h1 (counts_fst a)) (counts_meet _ _ _ _ h2 (counts_snd a))
      refine ⟨cv', ct', g1, g2, fun v n => ?_, fun t n => ?_⟩
      · rw [g3]
        simp [and_assoc]
      · rw [g4]
        simp [and_assoc]
  obtain ⟨cv, ct, h1, h2, h3, h4⟩ := key rest _ _ _ (counts_fst first) (counts_snd first)
  refine ⟨cv, ct, h1, h2, fun v n => ?_, fun t n => ?_⟩
  · rw [h3]
    simp
  · rw [h4]
    simp

theorem mem_keys_counts {κ : Type} [DecidableEq κ] (d : Dict κ ℕ) (c : κ → ℕ) (h : Counts d c) (k : κ) (n : ℕ) :
    (k, n) ∈ d ↔ n = c k ∧ 0 < c k := by
  rw [mem_iff_get? d h.1, h.2]
  split_ifs with h1
  · simp [h1]
  · simp only [Option.some.injEq]
    constructor
    · rintro rfl
      exact ⟨rfl, by omega⟩
    · rintro ⟨rfl, -⟩
      rfl

theorem sorted_of_nodup {κ : Type} [LinearOrder κ] (l : List κ) (h : l.Nodup) :
    (l.mergeSort (· ≤ ·)).Pairwise (· < ·) := by
  have h1 : (l.mergeSort (· ≤ ·)).Pairwise (fun a b => decide (a ≤ b) = true) :=
    List.pairwise_mergeSort (fun a b c => by simpa using le_trans) (fun a b => by simpa using le_total a b) l
  have h2 : (l.mergeSort (· ≤ ·)).Nodup := (List.mergeSort_perm l _).nodup_iff.2 h
  refine (h1.and h2).imp ?_
  rintro a b ⟨h3, h4⟩
  exact lt_of_le_of_ne (by simpa using h3) h4

theorem commonGrid_volumes (given : List (List Point)) (hg : given ≠ []) (n : ℕ) :
    (commonGrid given n).1.Pairwise (· < ·) ∧
      ∀ v, v ∈ (commonGrid given n).1 ↔ ∀ data ∈ given, max n 1 ≤ cntV data v := by
  obtain ⟨first, rest, rfl⟩ := List.exists_cons_of_ne_nil hg
  obtain ⟨cv, ct, h1, h2, h3, h4⟩ := minimum_spec first rest
  unfold commonGrid
  dsimp only
  refine ⟨sorted_of_nodup _ ((List.filter_sublist.map Prod.fst).nodup h1.1), fun v => ?_⟩
  rw [List.mem_mergeSort, List.mem_map, ← h3]
  constructor
  · rintro ⟨p, hp, rfl⟩
    rw [List.mem_filter] at hp
    obtain ⟨hp1, hp2⟩ := (mem_keys_counts _ cv h1 p.1 p.2).1 hp.1
    have := of_decide_eq_true hp.2
    omega
  · intro h
    refine ⟨(v, cv v), List.mem_filter.2 ⟨(mem_keys_counts _ cv h1 _ _).2 ⟨rfl, by omega⟩, ?_⟩, rfl⟩
    exact decide_eq_true (by omega)

theorem commonGrid_temps (given : List (List Point)) (hg : given ≠ []) (n : ℕ) :
    (commonGrid given n).2.Pairwise (· < ·) ∧
      ∀ t, t ∈ (commonGrid given n).2 ↔ ∀ data ∈ given, 1 ≤ cntT data t := by
  obtain ⟨first, rest, rfl⟩ := List.exists_cons_of_ne_nil hg
  obtain ⟨cv, ct, h1, h2, h3, h4⟩ := minimum_spec first rest
  unfold commonGrid
  dsimp only
  refine ⟨sorted_of_nodup _ h2.1, fun t => ?_⟩
  rw [List.mem_mergeSort, List.mem_map, ← h4]
  constructor
  · rintro ⟨p, hp, rfl⟩
    obtain ⟨hp1, hp2⟩ := (mem_keys_counts _ ct h2 p.1 p.2).1 hp
    omega
  · intro h
    exact ⟨(t, ct t), (mem_keys_counts _ ct h2 _ _).2 ⟨rfl, by omega⟩, rfl⟩

/-! ### From points to entries of files -/

theorem round3_iff (x v : ℚ) : round3 x = v ↔ Rounded3 x v := by
  unfold round3 Rounded3
  constructor
  · rintro rfl
    exact ⟨_, roundHalfEven_spec _, rfl⟩
  · rintro ⟨k, hk, rfl⟩
    rw [← roundHalfEven_unique hk]

theorem rint_iff (x : ℚ) (t : ℤ) : roundHalfEven x = t ↔ IsRoundHalfEven x t :=
  ⟨fun h => h ▸ roundHalfEven_spec x, fun h => (roundHalfEven_unique h).symm⟩

theorem atLeast_iff {α : Type} (n : ℕ) (P : α → Prop) (p : α → Bool) (hp : ∀ x, p x = true ↔ P x) (l : List α) :
    AtLeast n P l ↔ n ≤ l.countP p := by
  constructor
  · rintro ⟨l', h1, h2, h3⟩
    have h4 : l'.countP p = l'.length := List.countP_eq_length.2 fun x hx => (hp x).2 (h3 x hx)
    exact (h2.trans h4.ge).trans (h1.countP_le)
  · intro h
    refine ⟨l.filter p, List.filter_sublist, ?_, fun x hx => (hp x).1 (List.mem_filter.1 hx).2⟩
    rwa [← List.countP_eq_length_filter]

/-- A list of points comes from entries. -/
structure From {α : Type} (entries : List α) (data : List Point) where
  pt : α → Point
  vol : α → ℚ
  temp : α → ℚ
  eq : data = entries.map pt
  hvol : ∀ x, (pt x).volume = some (vol x)
  htemp : ∀ x, (pt x).temperature = some (temp x)

theorem From.cntV {α : Type} {entries : List α} {data : List Point} (c : From entries data) (n : ℕ) (v : ℚ)
    (G : α → Prop) (hG : ∀ x, hasF (c.pt x) = true ↔ G x) :
    AtLeast n (fun x => G x ∧ Rounded3 (c.vol x) v) entries ↔ n ≤ cntV data v := by
  rw [atLeast_iff n _ (fun x => hasF (c.pt x) && decide (round3 ((c.pt x).volume.getD 0) = v))]
  · unfold Thermo.cntV
    have h := congrArg (List.countP fun d : Point => hasF d && decide (round3 (d.volume.getD 0) = v)) c.eq
    rw [List.countP_map] at h
    rw [h]
    rfl
  · intro x
    rw [Bool.and_eq_true, hG, decide_eq_true_eq, c.hvol, Option.getD_some, round3_iff]

theorem From.cntT {α : Type} {entries : List α} {data : List Point} (c : From entries data) (n : ℕ) (t : ℤ)
    (G : α → Prop) (hG : ∀ x, hasF (c.pt x) = true ↔ G x) :
    AtLeast n (fun x => G x ∧ IsRoundHalfEven (c.temp x) t) entries ↔ n ≤ cntT data t := by
  rw [atLeast_iff n _ (fun x => hasF (c.pt x) && decide (roundHalfEven ((c.pt x).temperature.getD 0) = t))]
  · unfold Thermo.cntT
    have h := congrArg
      (List.countP fun d : Point => hasF d && decide (roundHalfEven (d.temperature.getD 0) = t)) c.eq
    rw [List.countP_map] at h
    rw [h]
    rfl
  · intro x
    rw [Bool.and_eq_true, hG, decide_eq_true_eq, c.htemp, Option.getD_some, rint_iff]

noncomputable def fromSscha (u : Units) (f : Files) : From f.sscha (loadSscha u f) where
  pt := sschaPoint u
  vol := fun s => s.volume / s.nAtom
  temp := fun s => s.temperature
  eq := rfl
  hvol := fun _ => rfl
  htemp := fun _ => rfl

/-- The point of an entry for electrons. -/
noncomputable def electronPoint (x : ElectronFile × ElectronProp) : Point where
  volume := some (x.1.volume / x.1.nAtom)
  temperature := some x.2.temperature
  restart := none
  val := fun a => match a with
    | .freeEnergy => some (x.2.free / x.1.nAtom)
    | .entropy => some (x.2.entropy / x.1.nAtom)
    | _ => none
  pathYaml := some x.1.path
  pathFc2 := none

noncomputable def fromElectron (fs : List ElectronFile) : From (electronEntries fs) (loadElectron fs) where
  pt := electronPoint
  vol := fun x => x.1.volume / x.1.nAtom
  temp := fun x => x.2.temperature
  eq := by
    unfold loadElectron electronEntries electronPoints
    rw [List.map_flatMap]
    congr 1
    funext e
    rw [List.map_map]
    rfl
  hvol := fun _ => rfl
  htemp := fun _ => rfl

def fromTi (fs : List TiFile) : From (tiEntries Prod.fst fs) (tiPoints fs).1 where
  pt := fun x => tiPoint x.1 x.2
  vol := fun x => x.2.volume
  temp := fun x => x.2.temperature
  eq := by
    unfold tiPoints tiEntries
    dsimp only
    rw [List.map_filterMap, List.map_filterMap]
    congr 1
    funext f
    rcases f.result with _ | _ | _ <;> rfl
  hvol := fun _ => rfl
  htemp := fun _ => rfl

def fromTiExt (fs : List TiFile) : From (tiEntries Prod.snd fs) (tiPoints fs).2 where
  pt := fun x => tiPoint x.1 x.2
  vol := fun x => x.2.volume
  temp := fun x => x.2.temperature
  eq := by
    unfold tiPoints tiEntries
    dsimp only
    rw [List.map_filterMap, List.map_filterMap]
    congr 1
    funext f
    rcases f.result with _ | _ | _ <;> rfl
  hvol := fun _ => rfl
  htemp := fun _ => rfl

theorem good_iff (u : Units) (s : SschaFile) : hasF (sschaPoint u s) = true ↔ Good s := by
  unfold hasF sschaPoint Good
  cases s.converge <;> cases s.imaginary <;> simp

theorem forall_given (u : Units) (f : Files) (P : List Point → Prop) : (∀ data ∈ given u f, P data) ↔
    P (loadSscha u f) ∧ (∀ fs, f.electron = some fs → P (loadElectron fs)) ∧
      (∀ fs, f.ti = some fs → P (tiPoints fs).1) ∧ ∀ fs, f.electronPhonon = some fs → P (loadElectron fs) := by
  unfold given
  simp only [List.mem_append, or_imp, forall_and, List.mem_singleton, forall_eq, Option.mem_toList, Option.mem_def,
    Option.map_eq_some_iff, and_assoc]
  refine and_congr_right fun _ => ?_
  simp

theorem everyKind_volumes (u : Units) (f : Files) (v : ℚ) (n : ℕ) :
    (∀ data ∈ given u f, n ≤ cntV data v) ↔ EveryKind f n (fun vol _ => Rounded3 vol v) := by
  rw [forall_given]
  unfold EveryKind
  refine and_congr ((fromSscha u f).cntV n v _ (good_iff u)).symm (and_congr ?_ (and_congr ?_ ?_))
  · refine forall_congr' fun fs => imp_congr_right fun _ => ?_
    rw [← (fromElectron fs).cntV n v (fun _ => True) fun x => by simp [fromElectron, electronPoint, hasF]]
    simp only [true_and]
    rfl
  · refine forall_congr' fun fs => imp_congr_right fun _ => ?_
    rw [← (fromTi fs).cntV n v (fun _ => True) fun x => by simp [fromTi, tiPoint, hasF]]
    simp only [true_and]
    rfl
  · refine forall_congr' fun fs => imp_congr_right fun _ => ?_
    rw [← (fromElectron fs).cntV n v (fun _ => True) fun x => by simp [fromElectron, electronPoint, hasF]]
    simp only [true_and]
    rfl

theorem everyKind_temps (u : Units) (f : Files) (t : ℤ) (n : ℕ) :
    (∀ data ∈ given u f, n ≤ cntT data t) ↔ EveryKind f n (fun _ temp => IsRoundHalfEven temp t) := by
  rw [forall_given]
  unfold EveryKind
  refine and_congr ((fromSscha u f).cntT n t _ (good_iff u)).symm (and_congr ?_ (and_congr ?_ ?_))
  · refine forall_congr' fun fs => imp_congr_right fun _ => ?_
    rw [← (fromElectron fs).cntT n t (fun _ => True) fun x => by simp [fromElectron, electronPoint, hasF]]
    simp only [true_and]
    rfl
  · refine forall_congr' fun fs => imp_congr_right fun _ => ?_
    rw [← (fromTi fs).cntT n t (fun _ => True) fun x => by simp [fromTi, tiPoint, hasF]]
    simp only [true_and]
    rfl
  · refine forall_congr' fun fs => imp_congr_right fun _ => ?_
    rw [← (fromElectron fs).cntT n t (fun _ => True) fun x => by simp [fromElectron, electronPoint, hasF]]
    simp only [true_and]
    rfl

/-! ### Grid points -/

theorem lastWith_unique {α : Type} (P : α → Prop) (l : List α) (x y : α) (hx : LastWith P l x) (hy : LastWith P l y) :
    x = y := by
  obtain ⟨a1, a2, rfl, h1, h2⟩ := hx
  obtain ⟨b1, b2, h, h3, h4⟩ := hy
  rw [List.append_eq_append_iff] at h
  rcases h with ⟨c, rfl, h⟩ | ⟨c, rfl, h⟩
  · rcases c with _ | ⟨d, c⟩
    · exact (List.cons.inj h).1
    · exact absurd h3 (h2 y (by rw [(List.cons.inj h).2]; simp))
  · rcases c with _ | ⟨d, c⟩
    · exact (List.cons.inj h).1.symm
    · exact absurd h1 (h4 x (by rw [(List.cons.inj h).2]; simp))

theorem lastWith_append {α : Type} (P : α → Prop) (l : List α) (a x : α) :
    LastWith P (l ++ [a]) x ↔ (P a ∧ x = a) ∨ (¬ P a ∧ LastWith P l x) := by
  constructor
  · rintro ⟨l1, l2, h, h1, h2⟩
    rcases List.eq_nil_or_concat l2 with rfl | ⟨l3, b, rfl⟩
    · obtain ⟨rfl, h'⟩ := List.append_inj' h rfl
      have h := (List.cons.inj h').1
      exact Or.inl ⟨h ▸ h1, h.symm⟩
    · have h3 : l ++ [a] = (l1 ++ x :: l3) ++ [b] := by simpa using h
      obtain ⟨rfl, h'⟩ := List.append_inj' h3 rfl
      have h := (List.cons.inj h').1
      subst h
      exact Or.inr ⟨h2 a (by simp), l1, l3, rfl, h1, fun y hy => h2 y (by simp [hy])⟩
  · rintro (⟨h, rfl⟩ | ⟨h, l1, l2, rfl, h1, h2⟩)
    · exact ⟨l, [], rfl, h, by simp⟩
    · exact ⟨l1, l2 ++ [a], by simp, h1, fun y hy => by
        rcases List.mem_append.1 hy with hy | hy
        · exact h2 y hy
        · rw [List.mem_singleton.1 hy]
          exact h⟩

theorem exists_lastWith {α : Type} (P : α → Prop) (l : List α) (x : α) (hx : x ∈ l) (h : P x) :
    ∃ y, LastWith P l y := by
  induction l using List.reverseRecOn with
  | nil => cases hx
  | append_singleton l a ih =>
    by_cases ha : P a
    · exact ⟨a, (lastWith_append P l a a).2 (Or.inl ⟨ha, rfl⟩)⟩
    · rcases List.mem_append.1 hx with hx | hx
      · obtain ⟨y, hy⟩ := ih hx
        exact ⟨y, (lastWith_append P l a y).2 (Or.inr ⟨ha, hy⟩)⟩
      · rw [List.mem_singleton.1 hx] at h
        exact absurd h ha

theorem idxOf?_of_nodup {α : Type} [DecidableEq α] (l : List α) (h : l.Nodup) (i : ℕ) (v x : α) (hi : l[i]? = some v) :
    l.idxOf? x = some i ↔ x = v := by
  rw [List.idxOf?_eq_some_iff]
  obtain ⟨hl, hv⟩ := List.getElem?_eq_some_iff.1 hi
  constructor
  · rintro ⟨_, h1, -⟩
    rw [← h1, hv]
  · rintro rfl
    refine ⟨hl, hv, fun j hj h1 => ?_⟩
    have := (List.Nodup.getElem_inj_iff h (hi := by omega) (hj := hl)).1 (h1.trans hv.symm)
    omega

/-- The array in `_get_grid_data` at one grid point. -/
def place (volumes : List ℚ) (temps : List ℤ) (arr : ℕ → ℕ → Option Point) (d : Point) : ℕ → ℕ → Option Point :=
  match volumes.idxOf? (round3 (d.volume.getD 0)),
      (temps.map fun (t : ℤ) => (t : ℚ)).idxOf? (round3 (d.temperature.getD 0)) with
  | some i0, some j0 => fun i j => if i = i0 ∧ j = j0 then some d else arr i j
  | _, _ => arr

theorem place_spec (volumes : List ℚ) (temps : List ℤ) (hv : volumes.Nodup) (ht : temps.Nodup) (i j : ℕ) (v : ℚ)
    (t : ℤ) (hi : volumes[i]? = some v) (hj : temps[j]? = some t) (arr : ℕ → ℕ → Option Point) (d : Point) :
    (round3 (d.volume.getD 0) = v ∧ round3 (d.temperature.getD 0) = t → place volumes temps arr d i j = some d) ∧
    (¬ (round3 (d.volume.getD 0) = v ∧ round3 (d.temperature.getD 0) = t) →
      place volumes temps arr d i j = arr i j) := by
  have e1 := idxOf?_of_nodup volumes hv i v (round3 (d.volume.getD 0)) hi
  have e2 := idxOf?_of_nodup (temps.map fun (t : ℤ) => (t : ℚ)) (ht.map fun a b h => by exact_mod_cast h) j (t : ℚ)
    (round3 (d.temperature.getD 0)) (by rw [List.getElem?_map, hj]; rfl)
  unfold place
  constructor
  · rintro ⟨h1, h2⟩
    rw [e1.2 h1, e2.2 h2]
    simp
  · intro h
    rw [← e1, ← e2] at h
    rcases h1 : volumes.idxOf? (round3 (d.volume.getD 0)) with _ | i0
    · rfl
    · rcases h2 : (temps.map fun (t : ℤ) => (t : ℚ)).idxOf? (round3 (d.temperature.getD 0)) with _ | j0
      · rfl
      · dsimp only
        rw [if_neg]
        rintro ⟨rfl, rfl⟩
        exact h ⟨h1, h2⟩

theorem gridData_cell {α : Type} {entries : List α} {data : List Point} (c : From entries data) (volumes : List ℚ)
    (temps : List ℤ) (hv : volumes.Nodup) (ht : temps.Nodup) (i j : ℕ) (v : ℚ) (t : ℤ) (hi : volumes[i]? = some v)
    (hj : temps[j]? = some t) :
    (∃ x, LastWith (fun x => OnGrid (c.vol x) (c.temp x) v t) entries x ∧
      (gridData volumes temps data).cell i j = c.pt x) ∨
    ((∀ x, ¬ LastWith (fun x => OnGrid (c.vol x) (c.temp x) v t) entries x) ∧
      (gridData volumes temps data).cell i j = emptyPoint) := by
  have hg : (gridData volumes temps data).cell i j =
      (data.foldl (place volumes temps) (fun _ _ => none) i j).getD emptyPoint := rfl
  rw [hg, congrArg (fun l => (l.foldl (place volumes temps) (fun _ _ => none) i j).getD emptyPoint) c.eq]
  have key : ∀ l : List α, (∃ x, LastWith (fun x => OnGrid (c.vol x) (c.temp x) v t) l x ∧
      (l.map c.pt).foldl (place volumes temps) (fun _ _ => none) i j = some (c.pt x)) ∨
    ((∀ x, ¬ LastWith (fun x => OnGrid (c.vol x) (c.temp x) v t) l x) ∧
      (l.map c.pt).foldl (place volumes temps) (fun _ _ => none) i j = none) := by
    intro l
    induction l using List.reverseRecOn with
    | nil =>
      refine Or.inr ⟨?_, rfl⟩
      rintro x ⟨l1, l2, h, -⟩
      simp at h
    | append_singleton l a ih =>
      rw [List.map_append, List.foldl_append, List.map_singleton, List.foldl_cons, List.foldl_nil]
      obtain ⟨p1, p2⟩ := place_spec volumes temps hv ht i j v t hi hj
        ((l.map c.pt).foldl (place volumes temps) (fun _ _ => none)) (c.pt a)
      rw [c.hvol, c.htemp, Option.getD_some, Option.getD_some, round3_iff, round3_iff] at p1 p2
      simp only [lastWith_append]
      by_cases h : OnGrid (c.vol a) (c.temp a) v t
      · exact Or.inl ⟨a, Or.inl ⟨h, rfl⟩, p1 h⟩
      · rw [p2 h]
        rcases ih with ⟨x, h1, h2⟩ | ⟨h1, h2⟩
        · exact Or.inl ⟨x, Or.inr ⟨h, h1⟩, h2⟩
        · refine Or.inr ⟨?_, h2⟩
          rintro x (⟨h3, -⟩ | ⟨-, h3⟩)
          · exact h h3
          · exact h1 x h3
  rcases key entries with ⟨x, h1, h2⟩ | ⟨h1, h2⟩
  · exact Or.inl ⟨x, h1, by rw [h2]; rfl⟩
  · exact Or.inr ⟨h1, by rw [h2]; rfl⟩

/-! ### The terms -/

section Terms

variable (u : Units) (f : Files) (volumes : List ℚ) (temps : List ℤ) (hv : volumes.Nodup) (ht : temps.Nodup) (i j : ℕ)
  (v : ℚ) (t : ℤ) (hi : volumes[i]? = some v) (hj : temps[j]? = some t)

include hv ht hi hj

theorem term_sscha : ∃ x, SschaTerm u.kj f.sscha v t x ∧ HasFS ((gridData volumes temps (loadSscha u f)).cell i j) x := by
  rcases gridData_cell (fromSscha u f) volumes temps hv ht i j v t hi hj with ⟨s, h1, h2⟩ | ⟨h1, h2⟩
  · rw [h2]
    by_cases hg : Good s
    · refine ⟨_, Or.inl ⟨s, h1, hg, rfl⟩, ?_⟩
      constructor
      · simp only [fromSscha, sschaPoint, hg.1, hg.2, Option.map_some]
        simp only [Bool.not_false, Bool.and_self, if_true]
        congr 1
        ring
      · simp only [fromSscha, sschaPoint, hg.1, hg.2, Option.map_some]
        simp only [Bool.not_false, Bool.and_self, if_true]
        congr 1
        ring
    · refine ⟨none, Or.inr ⟨fun s' h' => ?_, rfl⟩, ?_⟩
      · rw [lastWith_unique _ _ _ _ h' h1]
        exact hg
      · have : ((s.converge && !s.imaginary) = true) = False := by
          simp only [Bool.and_eq_true, Bool.not_eq_true', eq_iff_iff, iff_false]
          exact hg
        constructor <;> simp only [fromSscha, sschaPoint, this, if_false, Option.map_none]
  · rw [h2]
    exact ⟨none, Or.inr ⟨fun s hs => absurd hs (h1 s), rfl⟩, rfl, rfl⟩

theorem term_electron (fs : List ElectronFile) :
    ∃ x, ElectronTerm fs v t x ∧ HasFS ((gridData volumes temps (loadElectron fs)).cell i j) x := by
  rcases gridData_cell (fromElectron fs) volumes temps hv ht i j v t hi hj with ⟨s, h1, h2⟩ | ⟨h1, h2⟩
  · rw [h2]
    exact ⟨_, Or.inl ⟨s.1, s.2, h1, rfl⟩, rfl, rfl⟩
  · rw [h2]
    exact ⟨none, Or.inr ⟨fun e p he => h1 (e, p) he, rfl⟩, rfl, rfl⟩

end Terms

theorem points_mem (g : Grid) (i j : ℕ) : (i, j) ∈ g.points ↔ i < g.volumes.length ∧ j < g.temps.length := by
  unfold Grid.points
  simp

theorem hasFS_add (p q : Point) (x y : Option (ℝ × ℝ)) (hp : HasFS p x) (hq : HasFS q y) :
    HasFS (p.add q) (plus x y) := by
  unfold HasFS Point.add
  dsimp only
  rw [hp.1, hp.2, hq.1, hq.2]
  cases x <;> cases y <;> exact ⟨rfl, rfl⟩

/-! ### Grids of thermodynamic integration -/

theorem copyStatic_ok (u : Units) (ti sscha g : Grid) (h : copyStatic u ti sscha = .ok g) :
    g.volumes = ti.volumes ∧ g.temps = ti.temps ∧
    (∀ i j, i < ti.volumes.length → j < ti.temps.length → (ti.cell i j).volume.isSome = true →
      ∃ s, (sscha.cell i j).restart = some s ∧ (g.cell i j).restart = some s ∧
        (g.cell i j).val .static = some (s.static * (1 / (u.kj * s.nAtom)))) ∧
    ∀ i j, (g.cell i j).volume = (ti.cell i j).volume ∧ (g.cell i j).temperature = (ti.cell i j).temperature ∧
      (g.cell i j).pathFc2 = (ti.cell i j).pathFc2 ∧
      ∀ a, a ≠ .static → (g.cell i j).val a = (ti.cell i j).val a := by
  unfold copyStatic at h
  split_ifs at h with h1
  injection h with h
  subst h
  refine ⟨rfl, rfl, fun i j hi hj hs => ?_, fun i j => ?_⟩
  · simp only [List.any_eq_true, not_exists, not_and, Bool.and_eq_true] at h1
    have h2 := h1 (i, j) ((points_mem ti i j).2 ⟨hi, hj⟩) hs
    obtain ⟨s, hs'⟩ : ∃ s, (sscha.cell i j).restart = some s := by
      cases hr : (sscha.cell i j).restart with
      | none => simp [hr] at h2
      | some s => exact ⟨s, rfl⟩
    have hn : (ti.cell i j).volume.isNone = false := by
      cases hq : (ti.cell i j).volume with
      | none => simp [hq] at hs
      | some _ => rfl
    exact ⟨s, hs', by simp only [hn, hs']; rfl, by simp only [hn, hs']; rfl⟩
  · dsimp only
    cases hq : (ti.cell i j).volume with
    | none => simp [hq]
    | some w =>
      simp only [Option.isNone_some, Bool.false_eq_true, if_false, hq, true_and]
      intro a ha
      rw [if_neg ha]

theorem copyStatic_error (u : Units) (ti sscha : Grid) (e : Err) (h : copyStatic u ti sscha = .error e) :
    e = .attributeError ∧ ∃ i j, i < ti.volumes.length ∧ j < ti.temps.length ∧
      (ti.cell i j).volume.isSome = true ∧ (sscha.cell i j).restart = none := by
  unfold copyStatic at h
  split_ifs at h with h1
  injection h with h
  refine ⟨h.symm, ?_⟩
  simp only [List.any_eq_true, Bool.and_eq_true] at h1
  obtain ⟨⟨i, j⟩, h2, h3, h4⟩ := h1
  rw [points_mem] at h2
  exact ⟨i, j, h2.1, h2.2, h3, Option.isNone_iff_eq_none.1 h4⟩

theorem setRef_spec (refPath : ℚ → String → Option String) (g : Grid) (i j : ℕ) :
    ((setReferencePaths refPath g).cell i j).volume = (g.cell i j).volume ∧
    ((setReferencePaths refPath g).cell i j).temperature = (g.cell i j).temperature ∧
    ((setReferencePaths refPath g).cell i j).val = (g.cell i j).val ∧
    ((g.cell i j).volume.isSome = true → (g.cell i j).pathFc2 = none →
      ((setReferencePaths refPath g).cell i j).pathFc2 =
        refPath ((g.cell i j).volume.getD 0) ((g.cell i j).pathYaml.getD "")) := by
  unfold setReferencePaths
  dsimp only
  cases hq : (g.cell i j).volume with
  | none => simp [hq]
  | some w =>
    simp only [Option.isNone_some, Bool.false_eq_true, if_false, Option.getD_some]
    cases hr : refPath w ((g.cell i j).pathYaml.getD "") with
    | none => simp [hq]
    | some p => simp

section Terms2

variable (u : Units) (harm : Harmonic) (refPath : ℚ → String → Option String) (f : Files) (volumes : List ℚ)
  (temps : List ℤ) (hv : volumes.Nodup) (ht : temps.Nodup) (i j : ℕ)
  (v : ℚ) (t : ℤ) (hi : volumes[i]? = some v) (hj : temps[j]? = some t)

include hv ht hi hj

theorem restart_spec (s : SschaFile)
    (h : ((gridData volumes temps (loadSscha u f)).cell i j).restart = some s) : LastSscha f.sscha v t s := by
  rcases gridData_cell (fromSscha u f) volumes temps hv ht i j v t hi hj with ⟨x, h1, h2⟩ | ⟨h1, h2⟩
  · rw [h2] at h
    have h3 : x = s := by simpa [fromSscha, sschaPoint] using h
    exact h3 ▸ h1
  · rw [h2] at h
    simp [emptyPoint] at h

theorem restart_none (h : ((gridData volumes temps (loadSscha u f)).cell i j).restart = none) :
    ∀ s, ¬ LastSscha f.sscha v t s := by
  rcases gridData_cell (fromSscha u f) volumes temps hv ht i j v t hi hj with ⟨x, h1, h2⟩ | ⟨h1, h2⟩
  · rw [h2] at h
    simp [fromSscha, sschaPoint] at h
  · exact h1

theorem term_ti (which : DataTI × DataTI → DataTI) (fs : List TiFile) (data : List Point)
    (c : From (tiEntries which fs) data) (hpt : c.pt = fun x => tiPoint x.1 x.2) (hvl : c.vol = fun x => x.2.volume)
    (htl : c.temp = fun x => x.2.temperature) (g : Grid)
    (hg : copyStatic u (setReferencePaths refPath (gridData volumes temps data))
      (gridData volumes temps (loadSscha u f)) = .ok g) :
    ∃ x, TiTerm which fs v t x ∧ HasFS (g.cell i j) x := by
  obtain ⟨-, -, -, h⟩ := copyStatic_ok u _ _ g hg
  obtain ⟨-, -, -, h4⟩ := h i j
  obtain ⟨-, -, s3, -⟩ := setRef_spec refPath (gridData volumes temps data) i j
  rw [s3] at h4
  rcases gridData_cell c volumes temps hv ht i j v t hi hj with ⟨x, h1, h2⟩ | ⟨h1, h2⟩
  · rw [hvl, htl] at h1
    rw [h2, hpt] at h4
    exact ⟨_, Or.inl ⟨x.1, x.2, h1, rfl⟩, h4 _ (by decide), h4 _ (by decide)⟩
  · rw [hvl, htl] at h1
    rw [h2] at h4
    exact ⟨none, Or.inr ⟨fun e p he => h1 (e, p) he, rfl⟩, h4 _ (by decide), h4 _ (by decide)⟩

theorem term_ref (fs : List TiFile) (g : Grid)
    (hg : copyStatic u (setReferencePaths refPath (gridData volumes temps (tiPoints fs).1))
      (gridData volumes temps (loadSscha u f)) = .ok g) :
    ∃ x, ReferenceTerm u.kj harm refPath f.sscha fs v t x ∧ HasFS ((referenceGrid u harm g).cell i j) x := by
  obtain ⟨-, -, h0, h⟩ := copyStatic_ok u _ _ g hg
  obtain ⟨h1, h2, h3, h4⟩ := h i j
  obtain ⟨s1, s2, s3, s4⟩ := setRef_spec refPath (gridData volumes temps (tiPoints fs).1) i j
  rw [s1] at h1
  rw [s2] at h2
  rw [s3] at h4
  have h0 := h0 i j (List.getElem?_eq_some_iff.1 hi).1 (List.getElem?_eq_some_iff.1 hj).1
  rw [s1] at h0
  rcases gridData_cell (fromTi fs) volumes temps hv ht i j v t hi hj with ⟨x, g1, g2⟩ | ⟨g1, g2⟩
  · rw [g2] at h0 h1 h2 h4 s4
    obtain ⟨s, k1, k2, k3⟩ := h0 rfl
    rw [s4 rfl rfl] at h3
    have hs := restart_spec u f volumes temps hv ht i j v t hi hj s k1
    refine ⟨_, Or.inl ⟨x.1, x.2, s, g1, hs, rfl⟩, ?_⟩
    have e1 : (g.cell i j).volume = some x.2.volume := h1
    have e2 : (g.cell i j).temperature = some x.2.temperature := h2
    have e3 : (g.cell i j).pathFc2 = refPath x.2.volume x.1 := h3
    unfold referenceGrid HasFS
    simp only [e1, e2, e3, k2, k3, Option.isNone_some, Bool.false_eq_true, if_false, Option.map_some]
    constructor
    · congr 1
      rw [div_div]
      ring
    · congr 1
      rw [div_div]
  · rw [g2] at h1 h4
    refine ⟨none, Or.inr ⟨fun e p he => g1 (e, p) he, rfl⟩, ?_⟩
    have e1 : (g.cell i j).volume = none := h1
    unfold referenceGrid HasFS
    simp only [e1, Option.isNone_none, if_true]
    exact ⟨h4 _ (by decide), h4 _ (by decide)⟩

end Terms2

theorem holds_add (volumes : List ℚ) (temps : List ℤ) (a b : Grid) (A B : ℚ → ℤ → Option (ℝ × ℝ) → Prop)
    (ha : GridHolds volumes temps a A) (hb : GridHolds volumes temps b B) :
    GridHolds volumes temps { a with cell := fun i j => (a.cell i j).add (b.cell i j) } (Plus A B) := by
  refine ⟨ha.1, ha.2.1, fun i j v t hi hj => ?_⟩
  obtain ⟨x, hx, hx'⟩ := ha.2.2 i j v t hi hj
  obtain ⟨y, hy, hy'⟩ := hb.2.2 i j v t hi hj
  exact ⟨_, ⟨x, y, hx, hy, rfl⟩, hasFS_add _ _ _ _ hx' hy'⟩

section Sums

variable (volumes : List ℚ) (temps : List ℤ) (a b c d : Grid) (A B C D : ℚ → ℤ → Option (ℝ × ℝ) → Prop)

theorem sum2 (ha : GridHolds volumes temps a A) (hb : GridHolds volumes temps b B) :
    ∃ g, sumOpt [some a, some b] = .ok (some g) ∧ GridHolds volumes temps g (Plus A B) := by
  refine ⟨_, ?_, holds_add volumes temps a b A B ha hb⟩
  have h1 : b.volumes = a.volumes := hb.1.trans ha.1.symm
  have h2 : b.temps = a.temps := hb.2.1.trans ha.2.1.symm
  simp [sumOpt, sumGrids, h1, h2, Except.map]

theorem sum3 (ha : GridHolds volumes temps a A) (hb : GridHolds volumes temps b B) (hc : GridHolds volumes temps c C) :
    ∃ g, sumOpt [some a, some b, some c] = .ok (some g) ∧ GridHolds volumes temps g (Plus (Plus A B) C) := by
  refine ⟨_, ?_, holds_add volumes temps _ c _ C (holds_add volumes temps a b A B ha hb) hc⟩
  have h1 : b.volumes = a.volumes := hb.1.trans ha.1.symm
  have h2 : b.temps = a.temps := hb.2.1.trans ha.2.1.symm
  have h3 : c.volumes = a.volumes := hc.1.trans ha.1.symm
  have h4 : c.temps = a.temps := hc.2.1.trans ha.2.1.symm
  simp [sumOpt, sumGrids, h1, h2, h3, h4, Except.map]

theorem sum4 (ha : GridHolds volumes temps a A) (hb : GridHolds volumes temps b B) (hc : GridHolds volumes temps c C)
    (hd : GridHolds volumes temps d D) :
    ∃ g, sumOpt [some a, some b, some c, some d] = .ok (some g) ∧
      GridHolds volumes temps g (Plus (Plus (Plus A B) C) D) := by
  refine ⟨_, ?_, holds_add volumes temps _ d _ D
    (holds_add volumes temps _ c _ C (holds_add volumes temps a b A B ha hb) hc) hd⟩
  have h1 : b.volumes = a.volumes := hb.1.trans ha.1.symm
  have h2 : b.temps = a.temps := hb.2.1.trans ha.2.1.symm
  have h3 : c.volumes = a.volumes := hc.1.trans ha.1.symm
  have h4 : c.temps = a.temps := hc.2.1.trans ha.2.1.symm
  have h5 : d.volumes = a.volumes := hd.1.trans ha.1.symm
  have h6 : d.temps = a.temps := hd.2.1.trans ha.2.1.symm
  simp [sumOpt, sumGrids, h1, h2, h3, h4, h5, h6, Except.map]

end Sums

/-- The grids of thermodynamic integration, if there are any. -/
noncomputable def tiPart (u : Units) (harm : Harmonic) (refPath : ℚ → String → Option String) (sscha : Grid)
    (volumes : List ℚ) (temps : List ℤ) : Option (List TiFile) → Except Err (Option (Grid × Grid × Grid))
  | none => .ok none
  | some d => (tiGrids u harm refPath sscha (gridData volumes temps (tiPoints d).1)
      (gridData volumes temps (tiPoints d).2)).map some

/-- The sums. -/
def sums (sscha : Grid) (el elPh ref ti ext : Option Grid) : Except Err Sums := do
  let a ← sumOpt [some sscha, el]
  let b ← sumOpt [some sscha, el, elPh]
  let c ← sumOpt [ref, ti]
  let d ← sumOpt [ref, ext]
  let e ← sumOpt [ref, ti, el]
  let f ← sumOpt [ref, ext, el]
  let g ← sumOpt [ref, ti, el, elPh]
  let h ← sumOpt [ref, ext, el, elPh]
  pure ⟨sscha, a, b, c, e, g, d, f, h⟩

theorem initGrids_eq (u : Units) (harm : Harmonic) (refPath : ℚ → String → Option String) (f : Files) :
    initGrids u harm refPath f =
      if f.electron.isNone && f.electronPhonon.isSome then .error .runtimeError
      else (tiPart u harm refPath (gridData (commonGrid (given u f) 10).1 (commonGrid (given u f) 10).2 (loadSscha u f))
        (commonGrid (given u f) 10).1 (commonGrid (given u f) 10).2 f.ti) >>= fun t =>
          sums (gridData (commonGrid (given u f) 10).1 (commonGrid (given u f) 10).2 (loadSscha u f))
            (f.electron.map fun d => gridData (commonGrid (given u f) 10).1 (commonGrid (given u f) 10).2 (loadElectron d))
            (f.electronPhonon.map fun d =>
              gridData (commonGrid (given u f) 10).1 (commonGrid (given u f) 10).2 (loadElectron d))
            (t.map fun x => x.1) (t.map fun x => x.2.1) (t.map fun x => x.2.2) := by
  unfold initGrids
  split_ifs with h
  · rfl
  · unfold tiPart sums
    rcases f.ti with _ | d <;> rfl

theorem sums_ok (sscha : Grid) (el elPh ref ti ext : Option Grid) (r : Sums)
    (h : sums sscha el elPh ref ti ext = .ok r) : r.sscha = sscha ∧
      sumOpt [some sscha, el] = .ok r.sschaEl ∧ sumOpt [some sscha, el, elPh] = .ok r.sschaElPh ∧
      sumOpt [ref, ti] = .ok r.ti ∧ sumOpt [ref, ext] = .ok r.tiExt ∧
      sumOpt [ref, ti, el] = .ok r.tiEl ∧ sumOpt [ref, ext, el] = .ok r.tiExtEl ∧
      sumOpt [ref, ti, el, elPh] = .ok r.tiElPh ∧ sumOpt [ref, ext, el, elPh] = .ok r.tiExtElPh := by
  unfold sums at h
  simp only [bind, Except.bind, pure, Except.pure] at h
  cases e1 : sumOpt [some sscha, el] with
  | error e => simp [e1] at h
  | ok a =>
  cases e2 : sumOpt [some sscha, el, elPh] with
  | error e => simp [e1, e2] at h
  | ok b =>
  cases e3 : sumOpt [ref, ti] with
  | error e => simp [e1, e2, e3] at h
  | ok c =>
  cases e4 : sumOpt [ref, ext] with
  | error e => simp [e1, e2, e3, e4] at h
  | ok d =>
  cases e5 : sumOpt [ref, ti, el] with
  | error e => simp [e1, e2, e3, e4, e5] at h
  | ok e =>
  cases e6 : sumOpt [ref, ext, el] with
  | error e => simp [e1, e2, e3, e4, e5, e6] at h
  | ok f =>
  cases e7 : sumOpt [ref, ti, el, elPh] with
  | error e => simp [e1, e2, e3, e4, e5, e6, e7] at h
  | ok g =>
  cases e8 : sumOpt [ref, ext, el, elPh] with
  | error e => simp [e1, e2, e3, e4, e5, e6, e7, e8] at h
  | ok k =>
    simp only [e1, e2, e3, e4, e5, e6, e7, e8, Except.ok.injEq] at h
    subst h
    exact ⟨rfl, rfl, rfl, rfl, rfl, rfl, rfl, rfl, rfl⟩

theorem given_ne (u : Units) (f : Files) : given u f ≠ [] := by
  unfold given
  simp

theorem holds_grid (u : Units) (f : Files) :
    (commonGrid (given u f) 10).1.Nodup ∧ (commonGrid (given u f) 10).2.Nodup :=
  ⟨(commonGrid_volumes _ (given_ne u f) 10).1.imp ne_of_lt, (commonGrid_temps _ (given_ne u f) 10).1.imp ne_of_lt⟩

section Main

variable {u : Units} {harm : Harmonic} {refPath : ℚ → String → Option String} {f : Files} {r : Sums}
  (h : initGrids u harm refPath f = .ok r)

include h

theorem init_parts : ¬ (f.electron = none ∧ f.electronPhonon ≠ none) ∧
    r.sscha.volumes = (commonGrid (given u f) 10).1 ∧ r.sscha.temps = (commonGrid (given u f) 10).2 ∧
    GridHolds r.sscha.volumes r.sscha.temps r.sscha (SschaTerm u.kj f.sscha) ∧
    ∃ el elPh ref ti ext, sums r.sscha el elPh ref ti ext = .ok r ∧
      (f.electron = none → el = none) ∧ (f.electronPhonon = none → elPh = none) ∧
      (f.ti = none → ref = none ∧ ti = none ∧ ext = none) ∧
      (∀ es, f.electron = some es → ∃ g, el = some g ∧ GridHolds r.sscha.volumes r.sscha.temps g (ElectronTerm es)) ∧
      (∀ es, f.electronPhonon = some es → ∃ g, elPh = some g ∧
        GridHolds r.sscha.volumes r.sscha.temps g (ElectronTerm es)) ∧
      ∀ ts, f.ti = some ts → ∃ g1 g2 g3, ref = some g1 ∧ ti = some g2 ∧ ext = some g3 ∧
        GridHolds r.sscha.volumes r.sscha.temps g1 (ReferenceTerm u.kj harm refPath f.sscha ts) ∧
        GridHolds r.sscha.volumes r.sscha.temps g2 (TiTerm Prod.fst ts) ∧
        GridHolds r.sscha.volumes r.sscha.temps g3 (TiTerm Prod.snd ts) := by
  rw [initGrids_eq] at h
  obtain ⟨n1, n2⟩ := holds_grid u f
  generalize (commonGrid (given u f) 10).1 = vs at *
  generalize (commonGrid (given u f) 10).2 = ts at *
  split_ifs at h with h0
  have h0' : ¬ (f.electron = none ∧ f.electronPhonon ≠ none) := by
    rintro ⟨h1, h2⟩
    apply h0
    rw [h1]
    cases hq : f.electronPhonon with
    | none => exact absurd hq h2
    | some _ => rfl
  cases ht : tiPart u harm refPath (gridData vs ts (loadSscha u f)) vs ts f.ti with
  | error e => rw [ht] at h; cases h
  | ok t =>
    rw [ht] at h
    replace h : sums (gridData vs ts (loadSscha u f)) (f.electron.map fun d => gridData vs ts (loadElectron d))
      (f.electronPhonon.map fun d => gridData vs ts (loadElectron d)) (t.map fun x => x.1) (t.map fun x => x.2.1)
      (t.map fun x => x.2.2) = .ok r := h
    have hs := (sums_ok _ _ _ _ _ _ r h).1
    have e1 : r.sscha.volumes = vs := by rw [hs]; rfl
    have e2 : r.sscha.temps = ts := by rw [hs]; rfl
    have hE : ∀ es, GridHolds vs ts (gridData vs ts (loadElectron es)) (ElectronTerm es) := fun es =>
      ⟨rfl, rfl, fun i j v t hi hj => term_electron vs ts n1 n2 i j v t hi hj es⟩
    rw [e1, e2]
    refine ⟨h0', rfl, rfl, ?_, _, _, _, _, _, hs ▸ h, ?_, ?_, ?_, ?_, ?_, ?_⟩
    · rw [hs]
      exact ⟨rfl, rfl, fun i j v t hi hj => term_sscha u f vs ts n1 n2 i j v t hi hj⟩
    · intro h1
      rw [h1]
      rfl
    · intro h1
      rw [h1]
      rfl
    · intro h1
      rw [h1] at ht
      injection ht with ht
      rw [← ht]
      exact ⟨rfl, rfl, rfl⟩
    · intro es h1
      rw [h1]
      exact ⟨_, rfl, hE es⟩
    · intro es h1
      rw [h1]
      exact ⟨_, rfl, hE es⟩
    · intro fs h1
      rw [h1] at ht
      unfold tiPart tiGrids at ht
      simp only [bind, Except.bind, pure, Except.pure] at ht
      cases c1 : copyStatic u (setReferencePaths refPath (gridData vs ts (tiPoints fs).1))
        (gridData vs ts (loadSscha u f)) with
      | error e => simp [c1, Except.map] at ht
      | ok g2 =>
      cases c2 : copyStatic u (setReferencePaths refPath (gridData vs ts (tiPoints fs).2))
        (gridData vs ts (loadSscha u f)) with
      | error e => simp [c1, c2, Except.map] at ht
      | ok g3 =>
        simp only [c1, c2, Except.map, Except.ok.injEq] at ht
        subst ht
        obtain ⟨a1, a2, -, -⟩ := copyStatic_ok u _ _ g2 c1
        obtain ⟨b1, b2, -, -⟩ := copyStatic_ok u _ _ g3 c2
        refine ⟨_, _, _, rfl, rfl, rfl, ⟨a1, a2, fun i j v t hi hj => ?_⟩, ⟨a1, a2, fun i j v t hi hj => ?_⟩,
          b1, b2, fun i j v t hi hj => ?_⟩
        · exact term_ref u harm refPath f vs ts n1 n2 i j v t hi hj fs g2 c1
        · exact term_ti u refPath f vs ts n1 n2 i j v t hi hj Prod.fst fs _ (fromTi fs) rfl rfl rfl g2 c1
        · exact term_ti u refPath f vs ts n1 n2 i j v t hi hj Prod.snd fs _ (fromTiExt fs) rfl rfl rfl g3 c2

end Main

/-! ### Properties -/

section Properties

variable (u : Units) (harm : Harmonic) (refPath : ℚ → String → Option String) (f : Files) (r : Sums)

/-- C74, volumes: the volumes of the grid are, in increasing order, those for which every kind of data that is given
has at least ten results. -/
theorem C74_volumes (h : initGrids u harm refPath f = .ok r) :
    r.sscha.volumes.Pairwise (· < ·) ∧
    ∀ v, v ∈ r.sscha.volumes ↔ EveryKind f 10 (fun vol _ => Rounded3 vol v) := by
  obtain ⟨-, h1, -⟩ := init_parts h
  rw [h1]
  obtain ⟨h2, h3⟩ := commonGrid_volumes (given u f) (given_ne u f) 10
  refine ⟨h2, fun v => ?_⟩
  rw [h3 v, ← everyKind_volumes u f v]
  rfl

/-- C74, temperatures: the temperatures of the grid are, in increasing order, the integers that are the rounded
temperature of at least one result of every kind. -/
theorem C74_temperatures (h : initGrids u harm refPath f = .ok r) :
    r.sscha.temps.Pairwise (· < ·) ∧
    ∀ t, t ∈ r.sscha.temps ↔ EveryKind f 1 (fun _ temp => IsRoundHalfEven temp t) := by
  obtain ⟨-, -, h1, -⟩ := init_parts h
  rw [h1]
  obtain ⟨h2, h3⟩ := commonGrid_temps (given u f) (given_ne u f) 10
  refine ⟨h2, fun t => ?_⟩
  rw [h3 t, ← everyKind_temps u f t]

/-- C74, SSCHA: values on the grid. -/
theorem C74_sscha (h : initGrids u harm refPath f = .ok r) :
    GridHolds r.sscha.volumes r.sscha.temps r.sscha (SschaTerm u.kj f.sscha) := (init_parts h).2.2.2.1

/-- C74, electrons: the values of SSCHA and of electrons are added. -/
theorem C74_electron (h : initGrids u harm refPath f = .ok r) :
    (f.electron = none → r.sschaEl = none) ∧
    ∀ es, f.electron = some es → ∃ g, r.sschaEl = some g ∧
      GridHolds r.sscha.volumes r.sscha.temps g (Plus (SschaTerm u.kj f.sscha) (ElectronTerm es)) := by
  obtain ⟨-, -, -, hS, el, elPh, ref, ti, ext, hs, h1, h2, h3, h4, h5, h6⟩ := init_parts h
  obtain ⟨-, k1, -⟩ := sums_ok _ _ _ _ _ _ r hs
  constructor
  · intro h0
    rw [h1 h0] at k1
    exact (Except.ok.inj k1).symm
  · intro es h0
    obtain ⟨g, rfl, hg⟩ := h4 es h0
    obtain ⟨g', hg', hh⟩ := sum2 _ _ _ _ _ _ hS hg
    rw [hg'] at k1
    exact ⟨g', (Except.ok.inj k1).symm, hh⟩

/-- C74, electron-phonon: a third contribution is added. -/
theorem C74_electron_phonon (h : initGrids u harm refPath f = .ok r) :
    (f.electronPhonon = none → r.sschaElPh = none) ∧
    ∀ ps, f.electronPhonon = some ps → ∃ es, f.electron = some es ∧ ∃ g, r.sschaElPh = some g ∧
      GridHolds r.sscha.volumes r.sscha.temps g
        (Plus (Plus (SschaTerm u.kj f.sscha) (ElectronTerm es)) (ElectronTerm ps)) := by
  obtain ⟨h0', -, -, hS, el, elPh, ref, ti, ext, hs, h1, h2, h3, h4, h5, h6⟩ := init_parts h
  obtain ⟨-, -, k1, -⟩ := sums_ok _ _ _ _ _ _ r hs
  constructor
  · intro h0
    rw [h2 h0] at k1
    cases el <;> exact (Except.ok.inj k1).symm
  · intro ps h0
    cases he : f.electron with
    | none => exact absurd ⟨he, by rw [h0]; simp⟩ h0'
    | some es =>
      obtain ⟨g1, rfl, hg1⟩ := h4 es he
      obtain ⟨g2, rfl, hg2⟩ := h5 ps h0
      obtain ⟨g', hg', hh⟩ := sum3 _ _ _ _ _ _ _ _ hS hg1 hg2
      rw [hg'] at k1
      exact ⟨es, rfl, g', (Except.ok.inj k1).symm, hh⟩

/-- C74, thermodynamic integration: the harmonic reference and the integral are added, and those of electrons if they
are given. -/
theorem C74_ti (h : initGrids u harm refPath f = .ok r) :
    (f.ti = none → r.ti = none ∧ r.tiExt = none ∧ r.tiEl = none ∧ r.tiExtEl = none ∧ r.tiElPh = none ∧
      r.tiExtElPh = none) ∧
    (f.electron = none → r.tiEl = none ∧ r.tiExtEl = none) ∧
    (f.electronPhonon = none → r.tiElPh = none ∧ r.tiExtElPh = none) ∧
    ∀ ts, f.ti = some ts →
      (∃ g g', r.ti = some g ∧ r.tiExt = some g' ∧
        GridHolds r.sscha.volumes r.sscha.temps g
          (Plus (ReferenceTerm u.kj harm refPath f.sscha ts) (TiTerm Prod.fst ts)) ∧
        GridHolds r.sscha.volumes r.sscha.temps g'
          (Plus (ReferenceTerm u.kj harm refPath f.sscha ts) (TiTerm Prod.snd ts))) ∧
      ∀ es, f.electron = some es →
        (∃ g g', r.tiEl = some g ∧ r.tiExtEl = some g' ∧
          GridHolds r.sscha.volumes r.sscha.temps g
            (Plus (Plus (ReferenceTerm u.kj harm refPath f.sscha ts) (TiTerm Prod.fst ts)) (ElectronTerm es)) ∧
          GridHolds r.sscha.volumes r.sscha.temps g'
            (Plus (Plus (ReferenceTerm u.kj harm refPath f.sscha ts) (TiTerm Prod.snd ts)) (ElectronTerm es))) ∧
        ∀ ps, f.electronPhonon = some ps →
          ∃ g g', r.tiElPh = some g ∧ r.tiExtElPh = some g' ∧
            GridHolds r.sscha.volumes r.sscha.temps g
              (Plus (Plus (Plus (ReferenceTerm u.kj harm refPath f.sscha ts) (TiTerm Prod.fst ts)) (ElectronTerm es))
                (ElectronTerm ps)) ∧
            GridHolds r.sscha.volumes r.sscha.temps g'
              (Plus (Plus (Plus (ReferenceTerm u.kj harm refPath f.sscha ts) (TiTerm Prod.snd ts)) (ElectronTerm es))
                (ElectronTerm ps)) := by
  obtain ⟨h0', -, -, hS, el, elPh, ref, ti, ext, hs, h1, h2, h3, h4, h5, h6⟩ := init_parts h
  obtain ⟨-, -, -, k1, k2, k3, k4, k5, k6⟩ := sums_ok _ _ _ _ _ _ r hs
  refine ⟨fun h0 => ?_, fun h0 => ?_, fun h0 => ?_, fun ts h0 => ?_⟩
  · obtain ⟨rfl, rfl, rfl⟩ := h3 h0
    exact ⟨(Except.ok.inj k1).symm, (Except.ok.inj k2).symm, (Except.ok.inj k3).symm, (Except.ok.inj k4).symm,
      (Except.ok.inj k5).symm, (Except.ok.inj k6).symm⟩
  · rw [h1 h0] at k3 k4
    constructor
    · cases ref <;> cases ti <;> exact (Except.ok.inj k3).symm
    · cases ref <;> cases ext <;> exact (Except.ok.inj k4).symm
  · rw [h2 h0] at k5 k6
    constructor
    · cases ref <;> cases ti <;> cases el <;> exact (Except.ok.inj k5).symm
    · cases ref <;> cases ext <;> cases el <;> exact (Except.ok.inj k6).symm
  · obtain ⟨g1, g2, g3, rfl, rfl, rfl, e1, e2, e3⟩ := h6 ts h0
    refine ⟨?_, fun es he => ⟨?_, fun ps hp => ?_⟩⟩
    · obtain ⟨a, ha, ha'⟩ := sum2 _ _ _ _ _ _ e1 e2
      obtain ⟨b, hb, hb'⟩ := sum2 _ _ _ _ _ _ e1 e3
      rw [ha] at k1
      rw [hb] at k2
      exact ⟨a, b, (Except.ok.inj k1).symm, (Except.ok.inj k2).symm, ha', hb'⟩
    · obtain ⟨ge, rfl, he'⟩ := h4 es he
      obtain ⟨a, ha, ha'⟩ := sum3 _ _ _ _ _ _ _ _ e1 e2 he'
      obtain ⟨b, hb, hb'⟩ := sum3 _ _ _ _ _ _ _ _ e1 e3 he'
      rw [ha] at k3
      rw [hb] at k4
      exact ⟨a, b, (Except.ok.inj k3).symm, (Except.ok.inj k4).symm, ha', hb'⟩
    · obtain ⟨ge, rfl, he'⟩ := h4 es he
      obtain ⟨gp, rfl, hp'⟩ := h5 ps hp
      obtain ⟨a, ha, ha'⟩ := sum4 _ _ _ _ _ _ _ _ _ _ e1 e2 he' hp'
      obtain ⟨b, hb, hb'⟩ := sum4 _ _ _ _ _ _ _ _ _ _ e1 e3 he' hp'
      rw [ha] at k5
      rw [hb] at k6
      exact ⟨a, b, (Except.ok.inj k5).symm, (Except.ok.inj k6).symm, ha', hb'⟩

theorem mem_grid {α : Type} (l : List α) (i : ℕ) (hi : i < l.length) : ∃ v, l[i]? = some v ∧ v ∈ l :=
  ⟨l[i], List.getElem?_eq_getElem hi, List.getElem_mem hi⟩

theorem cell_none_of_not_last {α : Type} {entries : List α} {data : List Point} (c : From entries data)
    (volumes : List ℚ) (temps : List ℤ) (hv : volumes.Nodup) (ht : temps.Nodup) (i j : ℕ) (v : ℚ) (t : ℤ)
    (hi : volumes[i]? = some v) (hj : temps[j]? = some t) :
    ((gridData volumes temps data).cell i j).volume.isSome = true ↔
      ∃ x, LastWith (fun x => OnGrid (c.vol x) (c.temp x) v t) entries x := by
  rcases gridData_cell c volumes temps hv ht i j v t hi hj with ⟨x, h1, h2⟩ | ⟨h1, h2⟩
  · rw [h2, c.hvol]
    exact ⟨fun _ => ⟨x, h1⟩, fun _ => rfl⟩
  · rw [h2]
    constructor
    · intro h
      cases h
    · rintro ⟨x, hx⟩
      exact absurd hx (h1 x)

theorem copy_error_iff {which : DataTI × DataTI → DataTI} {fs : List TiFile} {data : List Point}
    (c : From (tiEntries which fs) data) (hvl : c.vol = fun x => x.2.volume)
    (htl : c.temp = fun x => x.2.temperature) (volumes : List ℚ) (temps : List ℤ) (hv : volumes.Nodup)
    (ht : temps.Nodup) (e : Err) :
    copyStatic u (setReferencePaths refPath (gridData volumes temps data)) (gridData volumes temps (loadSscha u f)) =
      .error e ↔ e = .attributeError ∧ ∃ v ∈ volumes, ∃ t ∈ temps, (∃ path d, LastTi which fs v t path d) ∧
        ∀ s, ¬ LastSscha f.sscha v t s := by
  have hs := fun i j => (setRef_spec refPath (gridData volumes temps data) i j).1
  have hl : ∀ i j v t, volumes[i]? = some v → temps[j]? = some t →
      (((gridData volumes temps data).cell i j).volume.isSome = true ↔ ∃ path d, LastTi which fs v t path d) := by
    intro i j v t hi hj
    rw [cell_none_of_not_last c volumes temps hv ht i j v t hi hj, hvl, htl]
    exact ⟨fun ⟨x, hx⟩ => ⟨x.1, x.2, hx⟩, fun ⟨p, d, hx⟩ => ⟨(p, d), hx⟩⟩
  constructor
  · intro h
    obtain ⟨h1, i, j, hi, hj, h2, h3⟩ := copyStatic_error u _ _ e h
    obtain ⟨v, hv', hv2⟩ := mem_grid volumes i hi
    obtain ⟨t, ht', ht2⟩ := mem_grid temps j hj
    rw [hs, hl i j v t hv' ht'] at h2
    exact ⟨h1, v, hv2, t, ht2, h2, restart_none u f volumes temps hv ht i j v t hv' ht' h3⟩
  · rintro ⟨rfl, v, hv2, t, ht2, h1, h2⟩
    cases hc : copyStatic u (setReferencePaths refPath (gridData volumes temps data))
        (gridData volumes temps (loadSscha u f)) with
    | error e => rw [(copyStatic_error u _ _ e hc).1]
    | ok g =>
      obtain ⟨i, hi, hi'⟩ := List.mem_iff_getElem.1 hv2
      obtain ⟨j, hj, hj'⟩ := List.mem_iff_getElem.1 ht2
      have hi2 : volumes[i]? = some v := by rw [List.getElem?_eq_getElem hi, hi']
      have hj2 : temps[j]? = some t := by rw [List.getElem?_eq_getElem hj, hj']
      obtain ⟨-, -, h3, -⟩ := copyStatic_ok u _ _ g hc
      obtain ⟨s, h4, -⟩ := h3 i j hi hj (by rw [hs]; exact (hl i j v t hi2 hj2).2 h1)
      exact absurd (restart_spec u f volumes temps hv ht i j v t hi2 hj2 s h4) (h2 s)

theorem mapM_id_some {α : Type} (gs : List (Option α)) (l : List α) (h : gs.mapM id = some l) : gs = l.map some := by
  induction gs generalizing l with
  | nil =>
    simp only [List.mapM_nil, pure, Option.some.injEq] at h
    subst h
    rfl
  | cons a gs ih =>
    rw [List.mapM_cons] at h
    cases a with
    | none => cases h
    | some a =>
      cases hm : gs.mapM id with
      | none => rw [hm] at h; cases h
      | some l' =>
        rw [hm] at h
        have h' : some (a :: l') = some l := h
        injection h' with h'
        rw [← h', ih l' hm]
        rfl

theorem sumOpt_ok (volumes : List ℚ) (temps : List ℤ) (gs : List (Option Grid)) (h0 : gs ≠ [])
    (h : ∀ g, some g ∈ gs → g.volumes = volumes ∧ g.temps = temps) : ∃ o, sumOpt gs = .ok o := by
  unfold sumOpt
  cases hm : gs.mapM id with
  | none => exact ⟨_, rfl⟩
  | some l =>
    have e := mapM_id_some gs l hm
    subst e
    cases l with
    | nil => exact absurd rfl h0
    | cons g0 rest =>
      have hg : ∀ g ∈ g0 :: rest, g.volumes = volumes ∧ g.temps = temps := fun g hg => h g (List.mem_map.2 ⟨g, hg, rfl⟩)
      cases rest with
      | nil => exact ⟨_, rfl⟩
      | cons g1 rest =>
        dsimp only [sumGrids]
        rw [if_neg]
        · exact ⟨_, rfl⟩
        · simp only [List.any_eq_true, Bool.or_eq_true, decide_eq_true_eq, not_exists, not_and, not_or]
          intro g hg1
          obtain ⟨a1, a2⟩ := hg g (List.mem_cons_of_mem _ hg1)
          obtain ⟨b1, b2⟩ := hg g0 (by simp)
          rw [a1, a2, b1, b2]
          exact ⟨fun h => h rfl, fun h => h rfl⟩

theorem sums_total (volumes : List ℚ) (temps : List ℤ) (sscha : Grid) (el elPh ref ti ext : Option Grid)
    (h : ∀ g, some g ∈ [some sscha, el, elPh, ref, ti, ext] → g.volumes = volumes ∧ g.temps = temps) :
    ∃ r, sums sscha el elPh ref ti ext = .ok r := by
  have key : ∀ gs : List (Option Grid), gs ≠ [] → (∀ g ∈ gs, g ∈ [some sscha, el, elPh, ref, ti, ext]) →
      ∃ o, sumOpt gs = .ok o := fun gs h0 h1 => sumOpt_ok volumes temps gs h0 fun g hg => h g (h1 _ hg)
  obtain ⟨_, e1⟩ := key [some sscha, el] (by simp) (by simp)
  obtain ⟨_, e2⟩ := key [some sscha, el, elPh] (by simp) (by simp)
  obtain ⟨_, e3⟩ := key [ref, ti] (by simp) (by simp)
  obtain ⟨_, e4⟩ := key [ref, ext] (by simp) (by simp)
  obtain ⟨_, e5⟩ := key [ref, ti, el] (by simp) (by simp)
  obtain ⟨_, e6⟩ := key [ref, ext, el] (by simp) (by simp)
  obtain ⟨_, e7⟩ := key [ref, ti, el, elPh] (by simp) (by simp)
  obtain ⟨_, e8⟩ := key [ref, ext, el, elPh] (by simp) (by simp)
  unfold sums
  rw [e1, e2, e3, e4, e5, e6, e7, e8]
  exact ⟨_, rfl⟩

/-- C74, errors: the only errors are electron-phonon data without those of electrons, and results of thermodynamic
integration without an SSCHA result. -/
theorem C74_error (e : Err) : initGrids u harm refPath f = .error e ↔
    ((f.electron = none ∧ f.electronPhonon ≠ none) ∧ e = .runtimeError) ∨
    (¬ (f.electron = none ∧ f.electronPhonon ≠ none) ∧ TiWithoutSscha f ∧ e = .attributeError) := by
  have hc : (f.electron.isNone && f.electronPhonon.isSome) = true ↔ f.electron = none ∧ f.electronPhonon ≠ none := by
    rw [Bool.and_eq_true, Option.isNone_iff_eq_none, Option.isSome_iff_ne_none]
  obtain ⟨n1, n2⟩ := holds_grid u f
  have m1 : ∀ v, v ∈ (commonGrid (given u f) 10).1 ↔ EveryKind f 10 (fun vol _ => Rounded3 vol v) := fun v => by
    rw [(commonGrid_volumes (given u f) (given_ne u f) 10).2, ← everyKind_volumes u f v]
    rfl
  have m2 : ∀ t, t ∈ (commonGrid (given u f) 10).2 ↔ EveryKind f 1 (fun _ temp => IsRoundHalfEven temp t) := fun t => by
    rw [(commonGrid_temps (given u f) (given_ne u f) 10).2, ← everyKind_temps u f t]
  rw [initGrids_eq]
  split_ifs with h0
  · rw [hc] at h0
    simp only [Except.error.injEq]
    constructor
    · rintro rfl
      exact Or.inl ⟨h0, rfl⟩
    · rintro (⟨-, rfl⟩ | ⟨h1, -⟩)
      · rfl
      · exact absurd h0 h1
  · rw [hc] at h0
    generalize (commonGrid (given u f) 10).1 = vs at *
    generalize (commonGrid (given u f) 10).2 = ts at *
    have hel : ∀ (o : Option (List ElectronFile)) (g : Grid),
        o.map (fun d => gridData vs ts (loadElectron d)) = some g → g.volumes = vs ∧ g.temps = ts := by
      intro o g hg
      cases o with
      | none => cases hg
      | some d =>
        injection hg with hg
        rw [← hg]
        exact ⟨rfl, rfl⟩
    cases hti : f.ti with
    | none =>
      obtain ⟨r, hr⟩ := sums_total vs ts (gridData vs ts (loadSscha u f))
        (f.electron.map fun d => gridData vs ts (loadElectron d))
        (f.electronPhonon.map fun d => gridData vs ts (loadElectron d)) none none none (by
          intro g hg
          simp only [List.mem_cons, Option.some.injEq, List.not_mem_nil, or_false, reduceCtorEq] at hg
          rcases hg with rfl | hg | hg
          · exact ⟨rfl, rfl⟩
          · exact hel _ g hg.symm
          · exact hel _ g hg.symm)
      constructor
      · intro h
        replace h : sums (gridData vs ts (loadSscha u f)) (f.electron.map fun d => gridData vs ts (loadElectron d))
          (f.electronPhonon.map fun d => gridData vs ts (loadElectron d)) none none none = .error e := h
        rw [hr] at h
        cases h
      · rintro (⟨h1, -⟩ | ⟨-, ⟨fs, h1, -⟩, -⟩)
        · exact absurd h1 h0
        · rw [hti] at h1
          cases h1
    | some fs =>
      have k1 := copy_error_iff u refPath f (fromTi fs) rfl rfl vs ts n1 n2
      have k2 := copy_error_iff u refPath f (fromTiExt fs) rfl rfl vs ts n1 n2
      have hcond : TiWithoutSscha f ↔
          (∃ v ∈ vs, ∃ t ∈ ts, (∃ path d, LastTi Prod.fst fs v t path d) ∧ ∀ s, ¬ LastSscha f.sscha v t s) ∨
          ∃ v ∈ vs, ∃ t ∈ ts, (∃ path d, LastTi Prod.snd fs v t path d) ∧ ∀ s, ¬ LastSscha f.sscha v t s := by
        unfold TiWithoutSscha
        constructor
        · rintro ⟨fs', h1, v, t, h2, h3, h4, h5⟩
          rw [hti] at h1
          injection h1 with h1
          subst h1
          rcases h4 with h4 | h4
          · exact Or.inl ⟨v, (m1 v).2 h2, t, (m2 t).2 h3, h4, h5⟩
          · exact Or.inr ⟨v, (m1 v).2 h2, t, (m2 t).2 h3, h4, h5⟩
        · rintro (⟨v, h2, t, h3, h4, h5⟩ | ⟨v, h2, t, h3, h4, h5⟩)
          · exact ⟨fs, hti, v, t, (m1 v).1 h2, (m2 t).1 h3, Or.inl h4, h5⟩
          · exact ⟨fs, hti, v, t, (m1 v).1 h2, (m2 t).1 h3, Or.inr h4, h5⟩
      rw [hcond]
      cases c1 : copyStatic u (setReferencePaths refPath (gridData vs ts (tiPoints fs).1))
        (gridData vs ts (loadSscha u f)) with
      | error e1 =>
        obtain ⟨rfl, hw⟩ := (k1 e1).1 c1
        have : (tiPart u harm refPath (gridData vs ts (loadSscha u f)) vs ts (some fs)) = .error .attributeError := by
          unfold tiPart tiGrids
          simp only [c1, bind, Except.bind, Except.map]
        rw [this]
        constructor
        · intro h
          replace h : (Except.error Err.attributeError : Except Err Sums) = .error e := h
          injection h with h
          exact Or.inr ⟨h0, Or.inl hw, h.symm⟩
        · rintro (⟨h1, -⟩ | ⟨-, -, rfl⟩)
          · exact absurd h1 h0
          · rfl
      | ok g2 =>
      cases c2 : copyStatic u (setReferencePaths refPath (gridData vs ts (tiPoints fs).2))
        (gridData vs ts (loadSscha u f)) with
      | error e1 =>
        obtain ⟨rfl, hw⟩ := (k2 e1).1 c2
        have : (tiPart u harm refPath (gridData vs ts (loadSscha u f)) vs ts (some fs)) = .error .attributeError := by
          unfold tiPart tiGrids
          simp only [c1, c2, bind, Except.bind, Except.map]
        rw [this]
        constructor
        · intro h
          replace h : (Except.error Err.attributeError : Except Err Sums) = .error e := h
          injection h with h
          exact Or.inr ⟨h0, Or.inr hw, h.symm⟩
        · rintro (⟨h1, -⟩ | ⟨-, -, rfl⟩)
          · exact absurd h1 h0
          · rfl
      | ok g3 =>
        have ht : (tiPart u harm refPath (gridData vs ts (loadSscha u f)) vs ts (some fs)) =
            .ok (some (referenceGrid u harm g2, g2, g3)) := by
          unfold tiPart tiGrids
          simp only [c1, c2, bind, Except.bind, Except.map, pure, Except.pure]
        obtain ⟨a1, a2, -, -⟩ := copyStatic_ok u _ _ g2 c1
        obtain ⟨b1, b2, -, -⟩ := copyStatic_ok u _ _ g3 c2
        obtain ⟨r, hr⟩ := sums_total vs ts (gridData vs ts (loadSscha u f))
          (f.electron.map fun d => gridData vs ts (loadElectron d))
          (f.electronPhonon.map fun d => gridData vs ts (loadElectron d)) (some (referenceGrid u harm g2)) (some g2)
          (some g3) (by
            intro g hg
            simp only [List.mem_cons, Option.some.injEq, List.not_mem_nil, or_false] at hg
            rcases hg with rfl | hg | hg | rfl | rfl | rfl
            · exact ⟨rfl, rfl⟩
            · exact hel _ g hg.symm
            · exact hel _ g hg.symm
            · exact ⟨a1, a2⟩
            · exact ⟨a1, a2⟩
            · exact ⟨b1, b2⟩)
        rw [ht]
        constructor
        · intro h
          replace h : sums (gridData vs ts (loadSscha u f)) (f.electron.map fun d => gridData vs ts (loadElectron d))
            (f.electronPhonon.map fun d => gridData vs ts (loadElectron d)) (some (referenceGrid u harm g2)) (some g2)
            (some g3) = .error e := h
          rw [hr] at h
          cases h
        · rintro (⟨h1, -⟩ | ⟨-, hw | hw, -⟩)
          · exact absurd h1 h0
          · rw [(k1 .attributeError).2 ⟨rfl, hw⟩] at c1
            cases c1
          · rw [(k2 .attributeError).2 ⟨rfl, hw⟩] at c2
            cases c2

/-! ### Concrete cases -/

/-- A converged SSCHA result for one atom. -/
def goodFile (v t : ℚ) : SschaFile := ⟨"", v, 1, t, 1, 2, 3, true, false⟩

/-- One that did not converge. -/
def badFile (v t : ℚ) : SschaFile := ⟨"", v, 1, t, 1, 2, 3, false, false⟩

/-- A result of thermodynamic integration. -/
def tiFile (v t : ℚ) : TiFile := ⟨"", .ok (some (⟨v, t, 1, 2, 3⟩, ⟨v, t, 1, 2, 3⟩))⟩

theorem rounded3_int (n : ℤ) (v : ℚ) : Rounded3 n v ↔ v = n := by
  unfold Rounded3
  constructor
  · rintro ⟨k, hk, rfl⟩
    have h1 : (n : ℚ) * 1000 = ((n * 1000 : ℤ) : ℚ) := by push_cast; ring
    rw [h1] at hk
    rw [roundHalfEven_unique hk, roundHalfEven_intCast]
    push_cast
    ring
  · rintro rfl
    refine ⟨n * 1000, ?_, by push_cast; ring⟩
    have h1 : (n : ℚ) * 1000 = ((n * 1000 : ℤ) : ℚ) := by push_cast; ring
    rw [h1]
    have := roundHalfEven_spec ((n * 1000 : ℤ) : ℚ)
    rwa [roundHalfEven_intCast] at this

theorem atLeast_sublist {α : Type} (n : ℕ) (P : α → Prop) (l l' : List α) (h : l'.Sublist l) (hl : n ≤ l'.length)
    (hP : ∀ x ∈ l', P x) : AtLeast n P l := ⟨l', h, hl, hP⟩

theorem isRound_int (n : ℤ) : IsRoundHalfEven (n : ℚ) n := by
  have := roundHalfEven_spec (n : ℚ)
  rwa [roundHalfEven_intCast] at this

/-- Ten results for the volume 1 at the temperatures 1 to 10, and ten for the volume 2, at 1 to 9 and 11. -/
def gapSscha : List SschaFile :=
  ((List.range 10).map fun k => goodFile 1 ((k + 1 : ℕ) : ℚ)) ++
    ((List.range 10).map fun k => goodFile 2 ((if k = 9 then 11 else k + 1 : ℕ) : ℚ))

/-- Results of thermodynamic integration for all these volumes and temperatures. -/
def gapTi : List TiFile :=
  ((List.range 11).map fun k => tiFile 1 ((k + 1 : ℕ) : ℚ)) ++ ((List.range 11).map fun k => tiFile 2 ((k + 1 : ℕ) : ℚ))

theorem tiEntries_map (which : DataTI × DataTI → DataTI) (l : List (ℚ × ℚ)) :
    tiEntries which (l.map fun p => tiFile p.1 p.2) =
      l.map fun p => ("", which (⟨p.1, p.2, 1, 2, 3⟩, ⟨p.1, p.2, 1, 2, 3⟩)) := by
  unfold tiEntries tiFile
  induction l with
  | nil => rfl
  | cons a l ih => simp

theorem gapTi_eq : gapTi = (((List.range 11).map fun k => ((1 : ℚ), ((k + 1 : ℕ) : ℚ))) ++
    ((List.range 11).map fun k => ((2 : ℚ), ((k + 1 : ℕ) : ℚ)))).map fun p => tiFile p.1 p.2 := by
  unfold gapTi
  rw [List.map_append, List.map_map, List.map_map]
  rfl

theorem gap_without : TiWithoutSscha ⟨gapSscha, none, some gapTi, none⟩ := by
  have r1 : Rounded3 1 1 := by simpa using (rounded3_int 1 1).2 (by norm_num)
  have r11 : Rounded3 11 (11 : ℤ) := by simpa using (rounded3_int 11 11).2 (by norm_num)
  have i11 : IsRoundHalfEven 11 11 := by simpa using isRound_int 11
  refine ⟨gapTi, rfl, 1, 11, ⟨?_, ?_, ?_, ?_⟩, ⟨?_, ?_, ?_, ?_⟩, Or.inl ?_, ?_⟩
  · refine atLeast_sublist _ _ _ _ (List.sublist_append_left _ _) (by simp) ?_
    simp only [List.mem_map]
    rintro x ⟨k, -, rfl⟩
    exact ⟨⟨rfl, rfl⟩, by simpa [goodFile] using r1⟩
  · intro fs h
    cases h
  · intro fs h
    injection h with h
    rw [← h, gapTi_eq, tiEntries_map, List.map_append]
    refine atLeast_sublist _ _ _ _ (List.sublist_append_left _ _) (by simp) ?_
    simp only [List.mem_map]
    rintro x ⟨p, ⟨k, -, rfl⟩, rfl⟩
    exact r1
  · intro fs h
    cases h
  · refine atLeast_sublist _ _ _ [goodFile 2 11] ?_ (by simp) ?_
    · rw [List.singleton_sublist]
      unfold gapSscha
      refine List.mem_append_right _ (List.mem_map.2 ⟨9, by simp, ?_⟩)
      norm_num
    · intro x hx
      rw [List.mem_singleton.1 hx]
      exact ⟨⟨rfl, rfl⟩, i11⟩
  · intro fs h
    cases h
  · intro fs h
    injection h with h
    rw [← h, gapTi_eq, tiEntries_map]
    refine atLeast_sublist _ _ _ [("", ⟨1, 11, 1, 2, 3⟩)] ?_ (by simp) ?_
    · rw [List.singleton_sublist]
      refine List.mem_map.2 ⟨(1, 11), List.mem_append_left _ (List.mem_map.2 ⟨10, by simp, ?_⟩), rfl⟩
      norm_num
    · intro x hx
      rw [List.mem_singleton.1 hx]
      exact i11
  · intro fs h
    cases h
  · obtain ⟨y, hy⟩ := exists_lastWith (fun x : String × DataTI => OnGrid x.2.volume x.2.temperature 1 11)
      (tiEntries Prod.fst gapTi) ("", ⟨1, 11, 1, 2, 3⟩) (by
        rw [gapTi_eq, tiEntries_map]
        refine List.mem_map.2 ⟨(1, 11), List.mem_append_left _ (List.mem_map.2 ⟨10, by simp, ?_⟩), rfl⟩
        norm_num) ⟨r1, r11⟩
    exact ⟨y.1, y.2, hy⟩
  · rintro s ⟨l1, l2, h1, ⟨h2, h3⟩, -⟩
    have hs : s ∈ gapSscha := by
      have : s ∈ l1 ++ s :: l2 := by simp
      rw [← h1] at this
      exact this
    unfold gapSscha at hs
    rcases List.mem_append.1 hs with hs | hs
    · obtain ⟨k, hk, rfl⟩ := List.mem_map.1 hs
      rw [List.mem_range] at hk
      have h4 : Rounded3 (((k + 1 : ℕ) : ℤ) : ℚ) ((11 : ℤ) : ℚ) := by exact_mod_cast h3
      rw [rounded3_int] at h4
      have : (11 : ℤ) = ((k + 1 : ℕ) : ℤ) := by exact_mod_cast h4
      omega
    · obtain ⟨k, -, rfl⟩ := List.mem_map.1 hs
      have h4 : Rounded3 ((2 : ℤ) : ℚ) 1 := by simpa [goodFile] using h2
      rw [rounded3_int] at h4
      norm_num at h4

/-- C74, violation: one missing SSCHA result makes the whole analysis fail with an AttributeError, although there are
ten results of every kind for both volumes. -/
theorem C74_missing_violation (u : Units) (harm : Harmonic) (refPath : ℚ → String → Option String) :
    initGrids u harm refPath ⟨gapSscha, none, some gapTi, none⟩ = .error .attributeError ∧
    EveryKind ⟨gapSscha, none, some gapTi, none⟩ 10 (fun vol _ => Rounded3 vol 1) := by
  refine ⟨(C74_error u harm refPath _ _).2 (Or.inr ⟨by simp, gap_without, rfl⟩), ?_⟩
  obtain ⟨ts, -, v, t, h, -⟩ := gap_without
  refine ⟨?_, ?_, ?_, ?_⟩
  · refine atLeast_sublist _ _ _ _ (List.sublist_append_left _ _) (by simp) ?_
    simp only [List.mem_map]
    rintro x ⟨k, -, rfl⟩
    exact ⟨⟨rfl, rfl⟩, by simpa [goodFile] using (rounded3_int 1 1).2 (by norm_num)⟩
  · intro fs h
    cases h
  · intro fs h
    injection h with h
    rw [← h, gapTi_eq, tiEntries_map, List.map_append]
    refine atLeast_sublist _ _ _ _ (List.sublist_append_left _ _) (by simp) ?_
    simp only [List.mem_map]
    rintro x ⟨p, ⟨k, -, rfl⟩, rfl⟩
    simpa using (rounded3_int 1 1).2 (by norm_num)
  · intro fs h
    cases h

theorem init_sscha_only (u : Units) (harm : Harmonic) (refPath : ℚ → String → Option String) (l : List SschaFile) :
    ∃ r, initGrids u harm refPath ⟨l, none, none, none⟩ = .ok r := by
  cases h : initGrids u harm refPath ⟨l, none, none, none⟩ with
  | ok r => exact ⟨r, rfl⟩
  | error e =>
    rcases (C74_error u harm refPath _ e).1 h with ⟨⟨-, h1⟩, -⟩ | ⟨-, ⟨ts, h1, -⟩, -⟩
    · exact absurd rfl h1
    · cases h1

/-- C74, violation: temperatures that are not integers are counted for the grid and are not placed on it.  Here all
ten results converged at 300.4 K: the grid has the temperature 300 and no value there. -/
theorem C74_temperature_violation (u : Units) (harm : Harmonic) (refPath : ℚ → String → Option String) :
    ∃ r, initGrids u harm refPath ⟨List.replicate 10 (goodFile 1 (3004 / 10)), none, none, none⟩ = .ok r ∧
      (1 : ℚ) ∈ r.sscha.volumes ∧ (300 : ℤ) ∈ r.sscha.temps ∧
      ∀ i j, i < r.sscha.volumes.length → j < r.sscha.temps.length → (r.sscha.cell i j).val .freeEnergy = none := by
  obtain ⟨r, hr⟩ := init_sscha_only u harm refPath (List.replicate 10 (goodFile 1 (3004 / 10)))
  have r1 : Rounded3 1 1 := by simpa using (rounded3_int 1 1).2 (by norm_num)
  have i3 : IsRoundHalfEven (3004 / 10) 300 := by
    have : roundHalfEven (3004 / 10) = 300 := by decide +kernel
    rw [← this]
    exact roundHalfEven_spec _
  refine ⟨r, hr, ?_, ?_, ?_⟩
  · rw [(C74_volumes u harm refPath _ r hr).2]
    refine ⟨atLeast_sublist _ _ _ _ (List.Sublist.refl _) (by simp) ?_, ?_, ?_, ?_⟩
    · intro x hx
      rw [List.eq_of_mem_replicate hx]
      exact ⟨⟨rfl, rfl⟩, by simpa [goodFile] using r1⟩
    all_goals intro fs h; cases h
  · rw [(C74_temperatures u harm refPath _ r hr).2]
    refine ⟨atLeast_sublist _ _ _ _ (List.Sublist.refl _) (by simp) ?_, ?_, ?_, ?_⟩
    · intro x hx
      rw [List.eq_of_mem_replicate hx]
      exact ⟨⟨rfl, rfl⟩, by simpa [goodFile] using i3⟩
    all_goals intro fs h; cases h
  · intro i j hi hj
    obtain ⟨v, hv, -⟩ := mem_grid r.sscha.volumes i hi
    obtain ⟨t, ht, -⟩ := mem_grid r.sscha.temps j hj
    obtain ⟨-, -, h1⟩ := C74_sscha u harm refPath _ r hr
    obtain ⟨x, hx, h2, -⟩ := h1 i j v t hv ht
    rcases hx with ⟨s, ⟨l1, l2, h3, ⟨-, h4⟩, -⟩, -⟩ | ⟨-, rfl⟩
    · have hs : s ∈ List.replicate 10 (goodFile 1 (3004 / 10)) := by
        have : s ∈ l1 ++ s :: l2 := by simp
        rw [← h3] at this
        exact this
      rw [List.eq_of_mem_replicate hs] at h4
      obtain ⟨k, hk, hk'⟩ := h4
      have e1 : k = 300400 := by
        rw [roundHalfEven_unique hk]
        decide +kernel
      rw [e1] at hk'
      have h5 : (t : ℚ) * 10 = 3004 := by rw [hk']; norm_num
      have h6 : t * 10 = 3004 := by exact_mod_cast h5
      omega
    · exact h2

/-- C74, violation: a later result that did not converge hides an earlier one that did. -/
theorem C74_duplicate_violation (u : Units) (harm : Harmonic) (refPath : ℚ → String → Option String) :
    ∃ r, initGrids u harm refPath ⟨List.replicate 10 (goodFile 1 300) ++ [badFile 1 300], none, none, none⟩ = .ok r ∧
      ∀ i j, r.sscha.volumes[i]? = some 1 → r.sscha.temps[j]? = some 300 →
        (r.sscha.cell i j).val .freeEnergy = none := by
  obtain ⟨r, hr⟩ := init_sscha_only u harm refPath (List.replicate 10 (goodFile 1 300) ++ [badFile 1 300])
  refine ⟨r, hr, fun i j hi hj => ?_⟩
  obtain ⟨-, -, h1⟩ := C74_sscha u harm refPath _ r hr
  obtain ⟨x, hx, h2, -⟩ := h1 i j 1 300 hi hj
  rcases hx with ⟨s, h3, h4, -⟩ | ⟨-, rfl⟩
  · have h5 : LastSscha (List.replicate 10 (goodFile 1 300) ++ [badFile 1 300]) 1 300 (badFile 1 300) := by
      refine ⟨List.replicate 10 (goodFile 1 300), [], rfl, ⟨?_, ?_⟩, by simp⟩
      · simpa [badFile] using (rounded3_int 1 1).2 (by norm_num)
      · simpa [badFile] using (rounded3_int 300 300).2 (by norm_num)
    rw [lastWith_unique _ _ _ _ h3 h5] at h4
    cases h4.1
  · exact h2

/-- A concrete case of the theorems: ten converged results at 300 K for one volume give a grid with that point, and
its free energy is 3 / EVtoKJmol. -/
example (u : Units) (harm : Harmonic) (refPath : ℚ → String → Option String) :
    ∃ r, initGrids u harm refPath ⟨List.replicate 10 (goodFile 1 300), none, none, none⟩ = .ok r ∧
      (1 : ℚ) ∈ r.sscha.volumes ∧ (300 : ℤ) ∈ r.sscha.temps ∧
      ∀ i j, r.sscha.volumes[i]? = some 1 → r.sscha.temps[j]? = some 300 →
        (r.sscha.cell i j).val .freeEnergy = some (3 / u.kj) := by
  obtain ⟨r, hr⟩ := init_sscha_only u harm refPath (List.replicate 10 (goodFile 1 300))
  have r1 : Rounded3 1 1 := by simpa using (rounded3_int 1 1).2 (by norm_num)
  have i3 : IsRoundHalfEven 300 300 := by simpa using isRound_int 300
  refine ⟨r, hr, ?_, ?_, fun i j hi hj => ?_⟩
  · rw [(C74_volumes u harm refPath _ r hr).2]
    refine ⟨atLeast_sublist _ _ _ _ (List.Sublist.refl _) (by simp) ?_, ?_, ?_, ?_⟩
    · intro x hx
      rw [List.eq_of_mem_replicate hx]
      exact ⟨⟨rfl, rfl⟩, by simpa [goodFile] using r1⟩
    all_goals intro fs h; cases h
  · rw [(C74_temperatures u harm refPath _ r hr).2]
    refine ⟨atLeast_sublist _ _ _ _ (List.Sublist.refl _) (by simp) ?_, ?_, ?_, ?_⟩
    · intro x hx
      rw [List.eq_of_mem_replicate hx]
      exact ⟨⟨rfl, rfl⟩, by simpa [goodFile] using i3⟩
    all_goals intro fs h; cases h
  · obtain ⟨-, -, h1⟩ := C74_sscha u harm refPath _ r hr
    obtain ⟨x, hx, h2, -⟩ := h1 i j 1 300 hi hj
    have h5 : LastSscha (List.replicate 10 (goodFile 1 300)) 1 300 (goodFile 1 300) := by
      refine ⟨List.replicate 9 (goodFile 1 300), [], rfl, ⟨?_, ?_⟩, by simp⟩
      · simpa [goodFile] using r1
      · simpa [goodFile] using (rounded3_int 300 300).2 (by norm_num)
    rcases hx with ⟨s, h3, h4, rfl⟩ | ⟨h6, -⟩
    · rw [h2, lastWith_unique _ _ _ _ h3 h5]
      simp [goodFile]
      norm_num
    · exact absurd ⟨rfl, rfl⟩ (h6 _ h5)

end Properties

end Verif.Thermo
