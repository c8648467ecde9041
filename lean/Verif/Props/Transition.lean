import Verif.Spec.Transition
import Verif.Props.GridSearch
import Verif.Props.Vasprun

/-!
# C93: files of thermodynamic properties
-/

namespace Verif.Transition

open Verif.Spec Verif.Vasprun

theorem round2_round2 (k : ℤ) : round2 ((k : ℚ) / 100) = k / 100 := by
  unfold round2
  have h : ((k : ℚ) / 100) * 100 = k := by ring
  rw [h]
  have : GridSearch.rint (k : ℚ) = k :=
    (GridSearch.nearest_iff.1 (show Spec.GridSearch.NearestEven k (k : ℚ) by
      unfold Spec.GridSearch.NearestEven
      norm_num)).symm
  rw [this]

theorem rint_round (x : ℚ) : IsRoundHalfEven x (GridSearch.rint x) := by
  obtain ⟨h1, h2⟩ := GridSearch.rint_nearest x
  unfold IsRoundHalfEven
  rw [abs_sub_comm] at h1 h2
  exact ⟨h1, h2⟩

theorem arange100_eq (lo hi : ℤ) : arange100 ((lo : ℚ) / 100) ((hi : ℚ) / 100) =
    (List.range (hi - lo).toNat).map fun (k : ℕ) => ((lo : ℚ) + k) / 100 := by
  unfold arange100
  have h : ((hi : ℚ) / 100 - lo / 100) / (1 / 100) = ((hi - lo : ℤ) : ℚ) := by
    push_cast
    ring
  rw [h]
  have h2 : ⌈((hi - lo : ℤ) : ℚ)⌉₊ = (hi - lo).toNat := by
    rw [← Int.ceil_toNat, Int.ceil_intCast]
  rw [h2]
  apply List.map_congr_left
  intro k _
  ring

theorem foldl_min_spec (l : List ℚ) (v : ℚ) : l.foldl min v ∈ v :: l ∧ ∀ w ∈ v :: l, l.foldl min v ≤ w := by
  induction l generalizing v with
  | nil => simp
  | cons a l ih =>
    obtain ⟨h1, h2⟩ := ih (min v a)
    rw [List.foldl_cons]
    constructor
    · rcases List.mem_cons.1 h1 with h | h
      · rw [h]
        rcases min_choice v a with h | h <;> rw [h] <;> simp
      · simp [h]
    · intro w hw
      have h3 := h2 (min v a) (by simp)
      rcases List.mem_cons.1 hw with rfl | hw
      · exact h3.trans (min_le_left _ _)
      rcases List.mem_cons.1 hw with rfl | hw
      · exact h3.trans (min_le_right _ _)
      · exact h2 w (by simp [hw])

theorem foldl_max_spec {α : Type} [LinearOrder α] (l : List α) (v : α) :
    l.foldl max v ∈ v :: l ∧ ∀ w ∈ v :: l, w ≤ l.foldl max v := by
  induction l generalizing v with
  | nil => simp
  | cons a l ih =>
    obtain ⟨h1, h2⟩ := ih (max v a)
    rw [List.foldl_cons]
    constructor
    · rcases List.mem_cons.1 h1 with h | h
      · rw [h]
        rcases max_choice v a with h | h <;> rw [h] <;> simp
      · simp [h]
    · intro w hw
      have h3 := h2 (max v a) (by simp)
      rcases List.mem_cons.1 hw with rfl | hw
      · exact (le_max_left _ _).trans h3
      rcases List.mem_cons.1 hw with rfl | hw
      · exact (le_max_right _ _).trans h3
      · exact h2 w (by simp [hw])

theorem volumesToFit_iff (volumes vs : List ℚ) : volumesToFit volumes = .ok vs → TableVolumes volumes vs := by
  intro h
  cases volumes with
  | nil => cases h
  | cons v l =>
    simp only [volumesToFit, Except.ok.injEq] at h
    obtain ⟨a1, a2⟩ := foldl_min_spec l v
    obtain ⟨b1, b2⟩ := foldl_max_spec l v
    refine ⟨_, a1, _, b1, fun w hw => ⟨a2 w hw, b2 w hw⟩, _, _, rint_round _, rint_round _, ?_⟩
    rw [← h]
    unfold round2
    rw [arange100_eq, List.map_map]
    apply List.map_congr_left
    intro k _
    have := round2_round2 (GridSearch.rint ((l.foldl min v - 1) * 100) + (k : ℤ))
    unfold round2 at this
    push_cast at this
    simpa using this

theorem volumesToFit_ok (volumes : List ℚ) (h : volumes ≠ []) : ∃ vs, volumesToFit volumes = .ok vs := by
  cases volumes with
  | nil => exact absurd rfl h
  | cons v l => exact ⟨_, rfl⟩

theorem methods_ok (l : List (Option Eos.Fit)) (fits : List Eos.Fit) :
    l.mapM method = .ok fits ↔ l = fits.map some := by
  rw [mapM_iff]
  constructor
  · intro h
    induction h with
    | nil => rfl
    | @cons a b l r h _ ih =>
      cases a with
      | none => cases h
      | some e =>
        cases h
        simp [ih]
  · rintro rfl
    rw [List.forall₂_map_left_iff]
    exact List.forall₂_same.2 fun _ _ => rfl

theorem allFits_ok (s : Source) (fits : List Eos.Fit) : allFits s = .ok fits ↔ FitsOf s fits := by
  unfold allFits FitsOf
  cases h : s.fv with
  | none => simp
  | some l => simp [methods_ok]

theorem key_mapM {α β : Type} (l : List α) (f : α → Option β) (r : List β) :
    (l.mapM fun i => key (f i)) = .ok r ↔ l.map f = r.map some := by
  rw [mapM_iff]
  constructor
  · intro h
    induction h with
    | nil => rfl
    | @cons a b l r h _ ih =>
      simp only [List.map_cons, ih]
      unfold key at h
      cases hf : f a with
      | none => rw [hf] at h; cases h
      | some x => rw [hf] at h; cases h; rfl
  · intro h
    induction l generalizing r with
    | nil =>
      cases r with
      | nil => exact .nil
      | cons => simp at h
    | cons a l ih =>
      cases r with
      | nil => simp at h
      | cons b r =>
        simp only [List.map_cons, List.cons.injEq] at h
        refine .cons ?_ (ih r h.2)
        rw [h.1]
        rfl

theorem items_ok {α : Type} (l r : List α) : items l = .ok r ↔ l ≠ [] ∧ l = r := by
  unfold items
  cases l <;> simp

/-- What the file of a source holds in the section of equilibrium properties. -/
theorem eqItems_get (ev : ℝ) (s : Source) : (s.temps.zipIdx.map (eqItem ev s)).map EqItem.temperature = s.temps := by
  rw [List.map_map]
  have : (EqItem.temperature ∘ eqItem ev s) = Prod.fst := rfl
  rw [this, List.zipIdx_map_fst]

theorem zipIdx_map_snd {α β : Type} (l : List α) (f : ℕ → β) :
    (l.zipIdx.map fun p => f p.2) = (List.range l.length).map f := by
  apply List.ext_getElem?
  intro i
  simp only [List.getElem?_map, List.getElem?_zipIdx, List.getElem?_range]
  by_cases h : i < l.length
  · rw [List.getElem?_eq_getElem h, List.getElem?_range h]
    simp
  · rw [List.getElem?_eq_none (by omega), List.getElem?_eq_none (by simp; omega)]
    simp

theorem range_get {β : Type} (l : List β) : (List.range l.length).map (fun (i : ℕ) => l[i]?) = l.map some := by
  apply List.ext_getElem?
  intro i
  by_cases h : i < l.length
  · simp [List.getElem?_eq_getElem h, List.getElem?_range h]
  · simp [List.getElem?_eq_none (show l.length ≤ i by omega)]
    omega

theorem range_join {β : Type} (l : List (Option β)) (n : ℕ) (hn : l.length = n) :
    (List.range n).map (fun (i : ℕ) => (l[i]?).join) = l := by
  subst hn
  have := congrArg (List.map Option.join) (range_get l)
  rw [List.map_map, List.map_map] at this
  have h2 : (Option.join ∘ some : Option β → Option β) = id := rfl
  rw [h2, List.map_id] at this
  exact this

theorem toFloat_mapM {α : Type} (l : List α) (f : α → Entry) (r : List Value) :
    (l.mapM fun i => toFloat (f i)) = .ok r ↔ List.Forall₂ (fun i x => toFloat (f i) = .ok x) l r := mapM_iff

theorem map_some_join {α : Type} (l : List (Option α)) (r : List α) : l = r.map some ↔
    List.Forall₂ (fun a b => a = some b) l r := by
  constructor
  · rintro rfl
    rw [List.forall₂_map_left_iff]
    exact List.forall₂_same.2 fun _ _ => rfl
  · intro h
    induction h with
    | nil => rfl
    | cons h _ ih => simp [h, ih]

theorem eqEos (ev : ℝ) (s : Source) (hs : OnTemps s) (eos : List (ℝ × ℝ × ℝ)) (ht : s.temps ≠ []) :
    (s.temps.zipIdx.map (eqItem ev s)).mapM (fun i => key i.eos) = .ok eos ↔
      ∃ fits, FitsOf s fits ∧ eos = fits.map fun e => (e.v0, e.b0, e.e0) := by
  rw [key_mapM, List.map_map]
  have h1 : ((fun i => i.eos) ∘ eqItem ev s) = fun p : ℝ × ℕ => (s.extract p.2).map fun e => (e.v0, e.b0, e.e0) := rfl
  rw [h1, zipIdx_map_snd s.temps fun j => (s.extract j).map fun e => (e.v0, e.b0, e.e0)]
  unfold FitsOf Source.extract
  cases hf : s.fv with
  | none =>
    obtain ⟨t, ts, h⟩ := List.exists_cons_of_ne_nil ht
    constructor
    · intro h2
      rw [h] at h2
      cases eos with
      | nil => simp at h2
      | cons a l => simp [List.range_succ_eq_map] at h2
    · rintro ⟨fits, h, -⟩
      cases h
  | some l =>
    have h2 := range_join l s.temps.length (hs.1 l hf)
    have h3 : (List.range s.temps.length).map (fun (j : ℕ) => ((l[j]?).join).map
        fun e : Eos.Fit => (e.v0, e.b0, e.e0)) = l.map (Option.map fun e => (e.v0, e.b0, e.e0)) := by
      conv_rhs => rw [← h2]
      rw [List.map_map]
      rfl
    rw [h3]
    constructor
    · intro h
      have : ∃ fits, l = List.map some fits := by
        have h4 : ∀ o ∈ l, ∃ e, o = some e := by
          intro o ho
          have : (o.map fun e : Eos.Fit => (e.v0, e.b0, e.e0)) ∈ eos.map some := by
            rw [← h]
            exact List.mem_map_of_mem ho
          obtain ⟨x, -, hx⟩ := List.mem_map.1 this
          cases o with
          | none => cases hx
          | some e => exact ⟨e, rfl⟩
        clear h h2 h3 hf
        induction l with
        | nil => exact ⟨[], rfl⟩
        | cons a l ih =>
          obtain ⟨e, he⟩ := h4 a (by simp)
          obtain ⟨r, hr⟩ := ih fun o ho => h4 o (by simp [ho])
          exact ⟨e :: r, by rw [he, hr]; rfl⟩
      obtain ⟨fits, rfl⟩ := this
      refine ⟨fits, rfl, ?_⟩
      rw [List.map_map] at h
      have : (fits.map fun e => some (e.v0, e.b0, e.e0)) = eos.map some := h
      have h5 := congrArg (List.map (fun o : Option (ℝ × ℝ × ℝ) => o.getD (0, 0, 0))) this
      rw [List.map_map, List.map_map] at h5
      have h6 : ((fun o : Option (ℝ × ℝ × ℝ) => o.getD (0, 0, 0)) ∘ some) = id := rfl
      rw [h6, List.map_id] at h5
      rw [← h5]
      rfl
    · rintro ⟨fits, h, rfl⟩
      cases h
      rw [List.map_map, List.map_map]
      rfl

theorem eqEntropies (ev : ℝ) (s : Source) (hs : OnTemps s) (r : List Value) (ht : s.temps ≠ []) :
    (s.temps.zipIdx.map (eqItem ev s)).mapM (fun i => toFloat i.entropy) = .ok r ↔
      ∃ l, EntropiesOf s l ∧ r = l.map fun x => some (x * ev) := by
  rw [toFloat_mapM]
  rw [List.forall₂_map_left_iff]
  have h1 : List.Forall₂ (fun (p : ℝ × ℕ) x => toFloat (eqItem ev s p).entropy = .ok x) s.temps.zipIdx r ↔
      List.Forall₂ (fun (j : ℕ) x => toFloat (entropyEntry ev s.entropies j) = .ok x)
        (List.range s.temps.length) r := by
    have := zipIdx_map_snd s.temps id
    rw [List.map_id] at this
    rw [← this, List.forall₂_map_left_iff]
    rfl
  rw [h1]
  unfold EntropiesOf
  cases he : s.entropies with
  | none =>
    obtain ⟨t, ts, h⟩ := List.exists_cons_of_ne_nil ht
    constructor
    · intro h2
      rw [h, List.length_cons, List.range_succ_eq_map] at h2
      cases h2 with
      | cons h3 _ => cases h3
    · rintro ⟨fits, h, -⟩
      cases h
  | some l =>
    have h2 := range_join l s.temps.length (hs.2.1 l he)
    have h3 : List.Forall₂ (fun (j : ℕ) x => toFloat (entropyEntry ev (some l) j) = .ok x)
        (List.range s.temps.length) r ↔ List.Forall₂ (fun (o : Option ℝ) x => ∃ y, o = some y ∧ x = some (y * ev)) l r := by
      conv_rhs => rw [← h2]
      rw [List.forall₂_map_left_iff]
      have : (fun (j : ℕ) (x : Value) => toFloat (entropyEntry ev (some l) j) = .ok x) =
          fun (c : ℕ) x => ∃ y, (l[c]?).join = some y ∧ x = some (y * ev) := by
        funext j x
        simp only [entropyEntry]
        cases (l[j]?).join with
        | none => simp [toFloat, entropyText]
        | some y =>
          simp only [toFloat, entropyText, Except.ok.injEq, Option.some.injEq, exists_eq_left', eq_iff_iff]
          exact eq_comm
      rw [this]
    rw [h3]
    constructor
    · intro h
      clear h1 h2 h3 he
      induction h with
      | nil => exact ⟨[], rfl, rfl⟩
      | cons h _ ih =>
        obtain ⟨y, rfl, rfl⟩ := h
        obtain ⟨l', h4, rfl⟩ := ih
        refine ⟨y :: l', ?_, rfl⟩
        simp only [Option.some.injEq] at h4
        simp [h4]
    · rintro ⟨l', h, rfl⟩
      simp only [Option.some.injEq] at h
      subst h
      rw [List.forall₂_map_left_iff, List.forall₂_map_right_iff]
      exact List.forall₂_same.2 fun x _ => ⟨x, rfl, rfl⟩

theorem eqCps (ev : ℝ) (s : Source) (hs : OnTemps s) (r : List Value) (ht : s.temps ≠ []) :
    (s.temps.zipIdx.map (eqItem ev s)).mapM (fun i => toFloat i.cp) = .ok r ↔ s.cp = some r := by
  rw [toFloat_mapM]
  rw [List.forall₂_map_left_iff]
  have h1 : List.Forall₂ (fun (p : ℝ × ℕ) x => toFloat (eqItem ev s p).cp = .ok x) s.temps.zipIdx r ↔
      List.Forall₂ (fun (j : ℕ) x => toFloat (cpEntry s.cp j) = .ok x) (List.range s.temps.length) r := by
    have := zipIdx_map_snd s.temps id
    rw [List.map_id] at this
    rw [← this, List.forall₂_map_left_iff]
    rfl
  rw [h1]
  cases he : s.cp with
  | none =>
    obtain ⟨t, ts, h⟩ := List.exists_cons_of_ne_nil ht
    constructor
    · intro h2
      rw [h, List.length_cons, List.range_succ_eq_map] at h2
      cases h2 with
      | cons h3 _ => cases h3
    · intro h
      cases h
  | some l =>
    have h2 := range_join l s.temps.length (hs.2.2 l he)
    have h3 : List.Forall₂ (fun (j : ℕ) x => toFloat (cpEntry (some l) j) = .ok x)
        (List.range s.temps.length) r ↔ List.Forall₂ (fun (o : Option ℝ) x => o = x) l r := by
      conv_rhs => rw [← h2]
      rw [List.forall₂_map_left_iff]
      have : (fun (j : ℕ) (x : Value) => toFloat (cpEntry (some l) j) = .ok x) =
          fun (c : ℕ) x => (l[c]?).join = x := by
        funext j x
        simp only [cpEntry]
        cases (l[j]?).join <;> simp [toFloat, cpText]
      rw [this]
    rw [h3, List.forall₂_eq_eq_eq, Option.some.injEq]

theorem points_eq (s : Source) (j : ℕ) :
    dataPoints s.volumes ((List.range s.volumes.length).map fun i => s.free i j) = knownPoints s j := by
  unfold dataPoints knownPoints
  have h : s.volumes.zip ((List.range s.volumes.length).map fun i => s.free i j) =
      (List.range s.volumes.length).map fun (i : ℕ) => ((s.volumes[i]?).getD 0, s.free i j) := by
    apply List.ext_getElem
    · simp
    · intro i h1 h2
      have h3 : i < s.volumes.length := by simpa using h2
      simp [List.getElem?_eq_getElem h3]
  rw [h, List.filterMap_map]
  apply List.filterMap_congr
  intro i hi
  rw [List.mem_range] at hi
  simp only [Function.comp]
  rw [List.getElem?_eq_getElem hi]
  cases s.free i j <;> rfl

theorem zip_map_same {α β : Type} (l : List α) (f : α → β) : l.zip (l.map f) = l.map fun a => (a, f a) := by
  induction l with
  | nil => rfl
  | cons a l ih => simp [ih]

theorem fits_rows {β : Type} (fits : List Eos.Fit) (n : ℕ) (hn : fits.length = n) (f : Option Eos.Fit → β) :
    (List.range n).map (fun (j : ℕ) => f fits[j]?) = fits.map fun e => f (some e) := by
  subst hn
  have := congrArg (List.map f) (range_get fits)
  rw [List.map_map, List.map_map] at this
  exact this

variable {toGPa ev : ℝ}

/-- **C93, files.**  A file can be read exactly if the grid has volumes, an equation of state and an equilibrium
entropy were found at every temperature, and heat capacities were computed; the properties that are read are the ones
that were saved. -/
theorem C93_load (s : Source) (hs : OnTemps s) (ht : s.temps ≠ []) :
    ((∃ q, load (save toGPa ev s).1 = .ok q) ↔ s.volumes ≠ [] ∧ (∃ fits, FitsOf s fits) ∧ (∃ l, EntropiesOf s l) ∧
      ∃ l, s.cp = some l) ∧
    ∀ q, load (save toGPa ev s).1 = .ok q → LoadedAs toGPa ev s q := by
  have hlen : ∀ fits, FitsOf s fits → fits.length = s.temps.length := fun fits h => by
    have := hs.1 _ h
    simpa using this
  have heq : (save toGPa ev s).1.eq = s.temps.zipIdx.map (eqItem ev s) := by
    unfold save
    dsimp only
    split
    · rfl
    · split <;> rfl
  have hne : s.temps.zipIdx.map (eqItem ev s) ≠ [] := by
    obtain ⟨t, ts, h⟩ := List.exists_cons_of_ne_nil ht
    simp [h]
  have hitems : items (save toGPa ev s).1.eq = .ok (s.temps.zipIdx.map (eqItem ev s)) := by
    rw [heq]
    exact (items_ok _ _).2 ⟨hne, rfl⟩
  have hdata : (save toGPa ev s).1.data = some ⟨s.volumes, s.temps.zipIdx.map fun p =>
      (p.1, (List.range s.volumes.length).map fun i => s.free i p.2)⟩ := by
    unfold save
    dsimp only
    split
    · rfl
    · split <;> rfl
  have hdi : items (s.temps.zipIdx.map fun p => (p.1, (List.range s.volumes.length).map fun i => s.free i p.2)) =
      .ok (s.temps.zipIdx.map fun p => (p.1, (List.range s.volumes.length).map fun i => s.free i p.2)) := by
    refine (items_ok _ _).2 ⟨?_, rfl⟩
    obtain ⟨t, ts, h⟩ := List.exists_cons_of_ne_nil ht
    simp [h]
  have main : ∀ q, load (save toGPa ev s).1 = .ok q →
      (∃ vs fits l, volumesToFit s.volumes = .ok vs ∧ FitsOf s fits ∧ EntropiesOf s l ∧ s.cp = some q.eqCp) ∧
      LoadedAs toGPa ev s q := by
    intro q h
    unfold load at h
    simp only [bind, Except.bind, pure, Except.pure, hitems, hdata, key, hdi] at h
    cases h1 : (s.temps.zipIdx.map (eqItem ev s)).mapM (fun i => key i.eos) with
    | error e => simp only [key] at h1; simp [h1] at h
    | ok eos =>
      cases h2 : (s.temps.zipIdx.map (eqItem ev s)).mapM (fun i => toFloat i.entropy) with
      | error e => simp only [key] at h1; simp [h1, h2] at h
      | ok en =>
        cases h3 : (s.temps.zipIdx.map (eqItem ev s)).mapM (fun i => toFloat i.cp) with
        | error e => simp only [key] at h1; simp [h1, h2, h3] at h
        | ok cp =>
          obtain ⟨fits, hf, rfl⟩ := (eqEos ev s hs eos ht).1 h1
          obtain ⟨l, hl, rfl⟩ := (eqEntropies ev s hs en ht).1 h2
          have hcp := (eqCps ev s hs cp ht).1 h3
          simp only [key] at h1
          simp only [h1, h2, h3] at h
          cases hv : volumesToFit s.volumes with
          | error e => simp [save, hv] at h
          | ok vs =>
            have ha := (allFits_ok s fits).2 hf
            have h4 : items (lastSections toGPa s vs fits).1.eos = .ok (lastSections toGPa s vs fits).1.eos := by
              refine (items_ok _ _).2 ⟨?_, rfl⟩
              obtain ⟨t, ts, h⟩ := List.exists_cons_of_ne_nil ht
              simp [h, lastSections]
            have h5 : items (lastSections toGPa s vs fits).2 = .ok (lastSections toGPa s vs fits).2 := by
              refine (items_ok _ _).2 ⟨?_, rfl⟩
              obtain ⟨t, ts, h⟩ := List.exists_cons_of_ne_nil ht
              simp [h, lastSections]
            simp only [save, hv, ha, h4, h5, Except.ok.injEq] at h
            subst h
            refine ⟨⟨vs, fits, l, rfl, hf, hl, hcp⟩, eqItems_get ev s, ⟨fits, hf, ?_, ?_, ?_, vs,
              volumesToFit_iff _ _ hv, ?_, ?_⟩, ⟨l, hl, rfl⟩, hcp, ?_⟩
            · simp [List.map_map, Function.comp_def]
            · simp [List.map_map, Function.comp_def]
            · simp [List.map_map, Function.comp_def]
            · simp only [lastSections, List.map_map, Function.comp_def]
              rw [zipIdx_map_snd s.temps fun j => vs.zip (fitRow vs fits[j]?),
                fits_rows fits _ (hlen fits hf) fun o => vs.zip (fitRow vs o)]
              simp only [fitRow, zip_map_same]
            · simp only [lastSections, List.map_map, Function.comp_def]
              rw [zipIdx_map_snd s.temps fun j => (gibbsRow toGPa vs fits[j]?).1.zip (gibbsRow toGPa vs fits[j]?).2,
                fits_rows fits _ (hlen fits hf) fun o => (gibbsRow toGPa vs o).1.zip (gibbsRow toGPa vs o).2]
              simp only [gibbsRow]
              apply List.map_congr_left
              intro e _
              rw [List.zip_map']
              unfold Eos.gibbs slope4
              rw [List.map_map, List.map_map]
              apply List.map_congr_left
              intro v _
              simp only [Function.comp]
              have : (2 * (1 / 10000) : ℝ) = 2 / 10000 := by norm_num
              rw [this]
              congr 1
              ring
            · simp only [List.map_map, Function.comp_def]
              rw [zipIdx_map_snd s.temps fun j =>
                dataPoints s.volumes ((List.range s.volumes.length).map fun i => s.free i j)]
              apply List.map_congr_left
              intro j _
              exact points_eq s j
  refine ⟨⟨?_, ?_⟩, fun q h => (main q h).2⟩
  · rintro ⟨q, h⟩
    obtain ⟨⟨vs, fits, l, h1, h2, h3, h4⟩, -⟩ := main q h
    refine ⟨?_, ⟨fits, h2⟩, ⟨l, h3⟩, ⟨_, h4⟩⟩
    intro h
    rw [h] at h1
    cases h1
  · rintro ⟨hv, ⟨fits, hf⟩, ⟨l, hl⟩, ⟨cp, hcp⟩⟩
    obtain ⟨vs, hv⟩ := volumesToFit_ok s.volumes hv
    have ha := (allFits_ok s fits).2 hf
    have h1 := (eqEos ev s hs _ ht).2 ⟨fits, hf, rfl⟩
    have h2 := (eqEntropies ev s hs _ ht).2 ⟨l, hl, rfl⟩
    have h3 := (eqCps ev s hs cp ht).2 hcp
    have h4 : items (lastSections toGPa s vs fits).1.eos = .ok (lastSections toGPa s vs fits).1.eos := by
      refine (items_ok _ _).2 ⟨?_, rfl⟩
      obtain ⟨t, ts, h⟩ := List.exists_cons_of_ne_nil ht
      simp [h, lastSections]
    have h5 : items (lastSections toGPa s vs fits).2 = .ok (lastSections toGPa s vs fits).2 := by
      refine (items_ok _ _).2 ⟨?_, rfl⟩
      obtain ⟨t, ts, h⟩ := List.exists_cons_of_ne_nil ht
      simp [h, lastSections]
    simp only [key] at h1
    unfold load
    simp only [bind, Except.bind, pure, Except.pure, hitems, hdata, key, hdi, h1, h2, h3]
    simp only [save, hv, ha, h4, h5]
    exact ⟨_, rfl⟩

/-- **C93, files.**  Saving succeeds exactly if the grid has volumes and an equation of state was found at every
temperature. -/
theorem C93_save (s : Source) :
    (save toGPa ev s).2 = .ok () ↔ s.volumes ≠ [] ∧ ∃ fits, FitsOf s fits := by
  unfold save
  cases hv : volumesToFit s.volumes with
  | error e =>
    dsimp only
    constructor
    · intro h
      cases h
    · rintro ⟨h, -⟩
      obtain ⟨vs, h⟩ := volumesToFit_ok s.volumes h
      rw [hv] at h
      cases h
  | ok vs =>
    dsimp only
    have h1 : s.volumes ≠ [] := by
      intro h
      rw [h] at hv
      cases hv
    cases ha : allFits s with
    | error e =>
      dsimp only
      constructor
      · intro h
        cases h
      · rintro ⟨-, fits, h⟩
        rw [(allFits_ok s fits).2 h] at ha
        cases ha
    | ok fits =>
      dsimp only
      exact ⟨fun _ => ⟨h1, fits, (allFits_ok s fits).1 ha⟩, fun _ => rfl⟩

theorem methods_none (l : List (Option Eos.Fit)) (h : none ∈ l) : l.mapM method = .error .attributeError := by
  induction l with
  | nil => cases h
  | cons a l ih =>
    rw [List.mapM_cons]
    cases a with
    | none => rfl
    | some e =>
      have := ih (by simpa using h)
      simp [method, this, bind, Except.bind]

/-- **C93, violated**: if no equation of state was found at one temperature, saving raises AttributeError, although the
file has a form for such temperatures, and the tables of all temperatures are lost. -/
theorem C93_failed_fit_violation (s : Source) (hv : s.volumes ≠ []) (l : List (Option Eos.Fit)) (hl : s.fv = some l)
    (hn : none ∈ l) : (save toGPa ev s).2 = .error .attributeError ∧ (save toGPa ev s).1.fit = none ∧
      (save toGPa ev s).1.gibbs = none := by
  obtain ⟨vs, h⟩ := volumesToFit_ok s.volumes hv
  have h2 : allFits s = .error .attributeError := by
    unfold allFits
    rw [hl]
    exact methods_none l hn
  unfold save
  simp only [h, h2, and_self]

/-- **C93, violated**: if there is no equilibrium entropy at one temperature, saving succeeds and the file cannot be
read, neither for this temperature nor for the others. -/
theorem C93_entropy_violation (s : Source) (hs : OnTemps s) (ht : s.temps ≠ []) (hv : s.volumes ≠ [])
    (fits : List Eos.Fit) (hf : FitsOf s fits) (l : List (Option ℝ)) (hl : s.entropies = some l) (hn : none ∈ l) :
    (save toGPa ev s).2 = .ok () ∧ ∀ q, load (save toGPa ev s).1 ≠ .ok q := by
  refine ⟨(C93_save s).2 ⟨hv, fits, hf⟩, fun q h => ?_⟩
  obtain ⟨-, -, ⟨l', h2⟩, -⟩ := (C93_load (toGPa := toGPa) (ev := ev) s hs ht).1.1 ⟨q, h⟩
  rw [EntropiesOf, hl] at h2
  simp only [Option.some.injEq] at h2
  subst h2
  simp at hn

/-! ### Directories -/

theorem lookup_filter (dir : List (String × Doc)) (n m : String) (h : m ≠ n) :
    (dir.filter fun q => q.1 ≠ n).lookup m = dir.lookup m := by
  induction dir with
  | nil => rfl
  | cons a dir ih =>
    obtain ⟨k, d⟩ := a
    by_cases hk : k = n
    · subst hk
      rw [List.filter_cons_of_neg (by simp), ih, List.lookup_cons]
      have : (m == k) = false := by simpa using h
      rw [this]
    · rw [List.filter_cons_of_pos (by simp [hk]), List.lookup_cons, List.lookup_cons, ih]

theorem saveOne_lookup (dir : List (String × Doc)) (p : String × Option Source) (m : String) :
    (saveOne toGPa ev dir p).1.lookup m =
      match p.2 with
      | none => dir.lookup m
      | some s => if m = p.1 ++ ".yaml" then some (save toGPa ev s).1 else dir.lookup m := by
  obtain ⟨n, o⟩ := p
  cases o with
  | none => rfl
  | some s =>
    simp only [saveOne]
    by_cases h : m = n ++ ".yaml"
    · subst h
      simp [List.lookup_cons]
    · rw [List.lookup_cons, if_neg h, lookup_filter _ _ _ h]
      have : (m == n ++ ".yaml") = false := by simpa using h
      rw [this]

theorem append_inj' (a b : String) (h : a ++ ".yaml" = b ++ ".yaml") : a = b := by
  have := congrArg String.toList h
  rw [String.toList_append, String.toList_append] at this
  exact String.toList_inj.1 (List.append_cancel_right this)

theorem saveAll_spec (ps : List (String × Option Source)) (hn : (ps.map Prod.fst).Nodup) (dir : List (String × Doc)) :
    ((saveAll toGPa ev dir ps).2 = .ok () ↔ ∀ p ∈ ps, ∀ s, p.2 = some s → (save toGPa ev s).2 = .ok ()) ∧
    ((saveAll toGPa ev dir ps).2 = .ok () → ∀ p ∈ ps, ∀ s, p.2 = some s →
      (saveAll toGPa ev dir ps).1.lookup (p.1 ++ ".yaml") = some (save toGPa ev s).1) ∧
    ∀ m, (∀ p ∈ ps, ∀ s, p.2 = some s → m ≠ p.1 ++ ".yaml") → (saveAll toGPa ev dir ps).1.lookup m = dir.lookup m := by
  induction ps generalizing dir with
  | nil => simp [saveAll]
  | cons p ps ih =>
    rw [List.map_cons, List.nodup_cons] at hn
    have hl := saveOne_lookup (toGPa := toGPa) (ev := ev) dir p
    have h2 : (saveOne toGPa ev dir p).2 = .ok () ↔ ∀ s, p.2 = some s → (save toGPa ev s).2 = .ok () := by
      unfold saveOne
      cases p.2 <;> simp
    have hfirst : ∀ m, (∀ s, p.2 = some s → m ≠ p.1 ++ ".yaml") →
        (saveOne toGPa ev dir p).1.lookup m = dir.lookup m := by
      intro m hm
      rw [hl m]
      cases hp : p.2 with
      | none => rfl
      | some s =>
        dsimp only
        rw [if_neg (hm s hp)]
    cases hr : saveOne toGPa ev dir p with
    | mk dir' r =>
      rw [hr] at hl h2 hfirst
      cases r with
      | error e =>
        have h3 : saveAll toGPa ev dir (p :: ps) = (dir', .error e) := by
          simp only [saveAll, hr]
        rw [h3]
        refine ⟨⟨fun h => (by cases h), fun h => ?_⟩, fun h => (by cases h), fun m hm => ?_⟩
        · exact absurd (h2.2 fun s hs => h p (by simp) s hs) (by simp)
        · exact hfirst m fun s hs => hm p (by simp) s hs
      | ok u =>
        have h3 : saveAll toGPa ev dir (p :: ps) = saveAll toGPa ev dir' ps := by
          simp only [saveAll, hr]
        rw [h3]
        obtain ⟨i1, i2, i3⟩ := ih hn.2 dir'
        refine ⟨?_, ?_, ?_⟩
        · rw [i1]
          constructor
          · intro h q hq s hs
            rcases List.mem_cons.1 hq with rfl | hq
            · exact h2.1 rfl s hs
            · exact h q hq s hs
          · intro h q hq s hs
            exact h q (by simp [hq]) s hs
        · intro h q hq s hs
          rcases List.mem_cons.1 hq with rfl | hq
          · rw [i3, hl, hs]
            · simp
            · intro p' hp' s' _ he
              apply hn.1
              rw [append_inj' _ _ he]
              exact List.mem_map_of_mem hp'
          · exact i2 h q hq s hs
        · intro m hm
          rw [i3 m fun q hq s hs => hm q (by simp [hq]) s hs]
          exact hfirst m fun s hs => hm p (by simp) s hs

/-- **C93, directories.**  Saving all results writes one file for each kind of data that exists, with the properties of
this kind; other files are not touched.  It succeeds exactly if each of them can be saved. -/
theorem C93_directory (srcs : List (Option Source)) (h9 : srcs.length = 9) (dir : List (String × Doc)) :
    let names := ["sscha", "sscha_el", "sscha_el_ph", "ti", "ti_el", "ti_el_ph", "ti_ext", "ti_ext_el", "ti_ext_el_ph"]
    let r := saveAll toGPa ev dir (fileNames.zip srcs)
    (r.2 = .ok () ↔ ∀ s, some s ∈ srcs → s.volumes ≠ [] ∧ ∃ fits, FitsOf s fits) ∧
    (r.2 = .ok () → ∀ (i : ℕ) n s, names[i]? = some n → srcs[i]? = some (some s) →
      r.1.lookup (n ++ ".yaml") = some (save toGPa ev s).1) ∧
    ∀ m, (∀ (i : ℕ) n s, names[i]? = some n → srcs[i]? = some (some s) → m ≠ n ++ ".yaml") →
      r.1.lookup m = dir.lookup m := by
  intro names r
  have hnames : fileNames = names := rfl
  have hnd : ((fileNames.zip srcs).map Prod.fst).Nodup := by
    rw [List.map_fst_zip (by rw [h9]; decide)]
    decide
  obtain ⟨h1, h2, h3⟩ := saveAll_spec (toGPa := toGPa) (ev := ev) (fileNames.zip srcs) hnd dir
  have hmem : ∀ (n : String) (o : Option Source), (n, o) ∈ fileNames.zip srcs ↔
      ∃ i : ℕ, names[i]? = some n ∧ srcs[i]? = some o := by
    intro n o
    rw [List.mem_iff_getElem?]
    simp only [List.getElem?_zip_eq_some, hnames]
  refine ⟨?_, ?_, ?_⟩
  · rw [h1]
    constructor
    · intro h s hs
      obtain ⟨i, hi⟩ := List.mem_iff_getElem?.1 hs
      have hlt : i < names.length := by
        have : i < srcs.length := by
          by_contra hc
          rw [List.getElem?_eq_none (by omega)] at hi
          cases hi
        rw [h9] at this
        exact this
      exact (C93_save s).1 (h (names[i], some s) ((hmem _ _).2 ⟨i, List.getElem?_eq_getElem hlt, hi⟩) s rfl)
    · rintro h ⟨n, o⟩ hp s hs
      obtain ⟨i, -, hi⟩ := (hmem n o).1 hp
      simp only at hs
      subst hs
      exact (C93_save s).2 (h s (List.mem_iff_getElem?.2 ⟨i, hi⟩))
  · intro hr i n s hn hs
    exact h2 hr (n, some s) ((hmem _ _).2 ⟨i, hn, hs⟩) s rfl
  · intro m hm
    refine h3 m ?_
    rintro ⟨n, o⟩ hp s hs
    simp only at hs
    subst hs
    obtain ⟨i, a, b⟩ := (hmem n _).1 hp
    exact hm i n s a b

/-! ### Non-vacuity -/

/-- Two temperatures with equations of state, entropies and heat capacities, and one free energy missing. -/
noncomputable def exSource (entropies : List (Option ℝ)) (fits : List (Option Eos.Fit)) : Source :=
  ⟨[10, 12, 11], [0, 100], some fits, some entropies, some [some 0, none], fun i j => if i = 1 ∧ j = 1 then none else some i⟩

noncomputable def exFit : Eos.Fit := ⟨100, -3, 11, fun v => (v - 11) ^ 2 - 3⟩

theorem exOnTemps (e1 e2 : Option ℝ) (f1 f2 : Option Eos.Fit) : OnTemps (exSource [e1, e2] [f1, f2]) := by
  unfold OnTemps exSource
  refine ⟨?_, ?_, ?_⟩ <;> (intro l h; simp only [Option.some.injEq] at h; subst h; rfl)

example : OnTemps (exSource [some 1, some 2] [some exFit, some exFit]) ∧
    ∃ q, load (save toGPa ev (exSource [some 1, some 2] [some exFit, some exFit])).1 = .ok q :=
  ⟨exOnTemps _ _ _ _, (C93_load _ (exOnTemps _ _ _ _) (by simp [exSource])).1.2
    ⟨by simp [exSource], ⟨[exFit, exFit], rfl⟩, ⟨[1, 2], rfl⟩, ⟨_, rfl⟩⟩⟩

example : (save toGPa ev (exSource [some 1, some 2] [some exFit, none])).2 = .error .attributeError :=
  (C93_failed_fit_violation _ (by simp [exSource]) _ rfl (by simp)).1

example : ∀ q, load (save toGPa ev (exSource [some 1, none] [some exFit, some exFit])).1 ≠ .ok q :=
  (C93_entropy_violation _ (exOnTemps _ _ _ _) (by simp [exSource]) (by simp [exSource]) [exFit, exFit] rfl _ rfl
    (by simp)).2

end Verif.Transition
