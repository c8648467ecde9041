import Verif.Model.HybridEval
import Verif.Spec.HybridRows
import Verif.Lemmas.Rows
import Verif.Lemmas.MlpNlm
import Mathlib.Algebra.BigOperators.Ring.List
import Mathlib.Data.List.Nodup

namespace Verif.HybridEval
open Verif.Rows Verif.Spec
variable {A P K : Type}

/-! ## Coefficients -/

theorem cumulative_length (ns : List ℕ) (acc : ℕ) : (cumulative ns acc).length = ns.length := by
  induction ns generalizing acc with
  | nil => rfl
  | cons n ns ih => simp [cumulative, ih]

theorem cumulative_get (ns : List ℕ) (acc i : ℕ) (hi : i < ns.length) :
    (cumulative ns acc)[i]? = some (acc + (ns.take (i + 1)).sum) := by
  induction ns generalizing acc i with
  | nil => simp at hi
  | cons n ns ih =>
    cases i with
    | zero => simp [cumulative]
    | succ i =>
      rw [cumulative, List.getElem?_cons_succ, ih _ _ (by simpa using hi)]
      simp [Nat.add_assoc]

theorem bounds_eq (ns : List ℕ) (i : ℕ) (hi : i < ns.length) :
    bounds (cumulative ns 0) i = .ok ((ns.take i).sum, (ns.take (i + 1)).sum) := by
  unfold bounds
  cases i with
  | zero =>
    rw [cumulative_get _ _ _ hi]
    simp [bind, Except.bind, pure, Except.pure, orErr]
  | succ i =>
    rw [Nat.add_sub_cancel, cumulative_get _ _ _ hi, cumulative_get _ _ _ (by omega)]
    simp [bind, Except.bind, pure, Except.pure, orErr]

theorem mapM_ok {α β : Type} (f : α → Except Err β) (g : α → β) (l : List α)
    (h : ∀ a ∈ l, f a = .ok (g a)) : l.mapM f = .ok (l.map g) := by
  induction l with
  | nil => rfl
  | cons a l ih =>
    rw [List.mapM_cons, h a (by simp), ih fun b hb => h b (by simp [hb])]
    rfl

/-- The `i`-th slice. -/
def sliceAt {α : Type} (ns : List ℕ) (target : List α) (i : ℕ) : List α :=
  slice target (ns.take i).sum (ns.take (i + 1)).sum

theorem division_eq {α : Type} (ns : List ℕ) (target : List α) :
    division (cumulative ns 0) ns.length target =
      .ok ((List.range ns.length).map (sliceAt ns target)) := by
  unfold division
  apply mapM_ok
  intro i hi
  rw [bounds_eq _ _ (List.mem_range.1 hi)]
  rfl

/-- Consecutive slices of given lengths, recursively. -/
def cut {α : Type} : List ℕ → List α → List (List α)
  | [], _ => []
  | n :: ns, l => l.take n :: cut ns (l.drop n)

theorem cut_eq {α : Type} (ns : List ℕ) (l : List α) :
    (List.range ns.length).map (sliceAt ns l) = cut ns l := by
  induction ns generalizing l with
  | nil => rfl
  | cons n ns ih =>
    rw [List.length_cons, List.range_succ_eq_map, List.map_cons, List.map_map, cut, ← ih]
    refine List.cons_eq_cons.2 ⟨by simp [sliceAt, slice], ?_⟩
    apply List.map_congr_left
    intro i _
    simp only [sliceAt, slice, Function.comp, Nat.succ_eq_add_one, List.take_succ_cons,
      List.sum_cons, List.take_drop, List.drop_drop]

theorem cut_flatten {α : Type} (ns : List ℕ) (l : List α) (h : l.length = ns.sum) :
    (cut ns l).flatten = l := by
  induction ns generalizing l with
  | nil => simpa [cut, eq_comm] using h
  | cons n ns ih =>
    rw [cut, List.flatten_cons, ih _ (by simp at h ⊢; omega), List.take_append_drop]

theorem cut_lengths {α : Type} (ns : List ℕ) (l : List α) (h : l.length = ns.sum) :
    (cut ns l).map List.length = ns := by
  induction ns generalizing l with
  | nil => rfl
  | cons n ns ih =>
    simp only [List.sum_cons] at h
    rw [cut, List.map_cons, ih _ (by simp; omega), List.length_take, Nat.min_eq_left (by omega)]

theorem cut_length {α : Type} (ns : List ℕ) (l : List α) : (cut ns l).length = ns.length := by
  induction ns generalizing l with
  | nil => rfl
  | cons n ns ih => simp [cut, ih]

theorem cut_zipWith {α β γ : Type} (f : α → β → γ) (ns : List ℕ) (l : List α) (m : List β) :
    ((cut ns l).zip (cut ns m)).map (fun q => List.zipWith f q.1 q.2) =
      cut ns (List.zipWith f l m) := by
  induction ns generalizing l m with
  | nil => rfl
  | cons n ns ih => simp only [cut, List.zip_cons_cons, List.map_cons, ih, List.take_zipWith, List.drop_zipWith]

theorem dot_append [Semiring K] (x y c d : List K) (h : x.length = c.length) :
    dot (x ++ y) (c ++ d) = dot x c + dot y d := by
  unfold dot
  rw [List.zipWith_append h, List.sum_append]

theorem dot_flatten [Semiring K] (xs : List (List K)) (ns : List ℕ) (c : List K)
    (hx : xs.map List.length = ns) (hc : c.length = ns.sum) :
    dot xs.flatten c = ((xs.zip (cut ns c)).map fun q => dot q.1 q.2).sum := by
  induction xs generalizing ns c with
  | nil => subst hx; simp [dot]
  | cons x xs ih =>
    subst hx
    simp only [List.map_cons, List.sum_cons] at hc
    rw [List.flatten_cons, List.map_cons, cut, List.zip_cons_cons, List.map_cons, List.sum_cons,
      ← ih _ _ rfl (by simp; omega)]
    conv_lhs => rw [← List.take_append_drop x.length c]
    rw [dot_append _ _ _ _ (by simp; omega)]

/-! ## Active atoms -/

/-- The replacements act on each entry separately. -/
theorem renumber_map (ids types : List ℕ) (k : ℕ) :
    (ids.zipIdx k).foldl (fun ts q => ts.map fun t => if t = q.1 then q.2 else t) types =
      types.map fun t => (ids.zipIdx k).foldl (fun t q => if t = q.1 then q.2 else t) t := by
  induction ids generalizing types k with
  | nil => simp
  | cons a ids ih =>
    rw [List.zipIdx_cons, List.foldl_cons, ih, List.map_map]
    apply List.map_congr_left
    intro t _
    simp

theorem chain_stays (ids : List ℕ) (k t : ℕ) (hs : ids.Pairwise (· < ·))
    (hlow : ∀ x ∈ ids, k ≤ x) (ht : t < k) :
    (ids.zipIdx k).foldl (fun t q => if t = q.1 then q.2 else t) t = t := by
  induction ids generalizing k with
  | nil => rfl
  | cons a ids ih =>
    rw [List.zipIdx_cons, List.foldl_cons]
    have := hlow a (by simp)
    rw [if_neg (by simp; omega)]
    rw [List.pairwise_cons] at hs
    exact ih (k + 1) hs.2 (fun x hx => by have := hs.1 x hx; omega) (by omega)

/-- Replacements one after the other give the position, when the indices increase. -/
theorem chain_idx (ids : List ℕ) (k t : ℕ) (hs : ids.Pairwise (· < ·))
    (hlow : ∀ x ∈ ids, k ≤ x) (ht : t ∈ ids) :
    (ids.zipIdx k).foldl (fun t q => if t = q.1 then q.2 else t) t = k + ids.idxOf t := by
  induction ids generalizing k with
  | nil => simp at ht
  | cons a ids ih =>
    rw [List.zipIdx_cons, List.foldl_cons]
    rw [List.pairwise_cons] at hs
    have hk := hlow a (by simp)
    have hlow' : ∀ x ∈ ids, k + 1 ≤ x := fun x hx => by have := hs.1 x hx; omega
    by_cases h : t = a
    · subst h
      rw [if_pos rfl, chain_stays ids (k + 1) k hs.2 hlow' (by omega)]
      simp
    · rw [if_neg h, ih (k + 1) hs.2 hlow' (by simpa [h] using ht),
        List.idxOf_cons_ne _ (fun e => h e.symm)]
      omega

theorem le_of_pairwise_lt (ids : List ℕ) (hs : ids.Pairwise (· < ·)) (i x : ℕ)
    (h : ids[i]? = some x) : i ≤ x := by
  obtain ⟨hi, rfl⟩ := List.getElem?_eq_some_iff.1 h
  clear h
  induction i with
  | zero => omega
  | succ i ih =>
    have := ih (by omega)
    have h2 := List.pairwise_iff_getElem.1 hs i (i + 1) (by omega) hi (by omega)
    omega

theorem renumber_eq (ids types : List ℕ) (hs : ids.Pairwise (· < ·)) (ht : ∀ t ∈ types, t ∈ ids) :
    renumber ids types = types.map ids.idxOf := by
  unfold renumber
  rw [renumber_map]
  apply List.map_congr_left
  intro t h
  rw [chain_idx ids 0 t hs (fun _ _ => Nat.zero_le _) (ht t h), Nat.zero_add]

theorem filterMap_get_length {α : Type} (l : List α) (is : List ℕ) (h : ∀ i ∈ is, i < l.length) :
    (is.filterMap fun i => l[i]?).length = is.length := by
  induction is with
  | nil => rfl
  | cons i is ih =>
    have hi := h i (by simp)
    rw [List.filterMap_cons_some (List.getElem?_eq_getElem hi), List.length_cons,
      ih fun j hj => h j (by simp [hj]), List.length_cons]

theorem mem_filterMap_get {α : Type} (l : List α) (is : List ℕ) (x : α) :
    x ∈ (is.filterMap fun i => l[i]?) ↔ ∃ i ∈ is, l[i]? = some x := List.mem_filterMap

theorem renumber_length (ids types : List ℕ) : (renumber ids types).length = types.length := by
  unfold renumber
  rw [renumber_map]
  simp

theorem cxxActive_atoms (full : Bool) (ids types : List ℕ) (positions : List P)
    (h : types.length = positions.length) :
    (cxxActive full ids types positions).atoms.Nodup ∧
    (∀ a ∈ (cxxActive full ids types positions).atoms, a < positions.length) ∧
    (cxxActive full ids types positions).types.length =
      (cxxActive full ids types positions).atoms.length := by
  unfold cxxActive
  cases full
  · simp only [Bool.false_eq_true, if_false]
    refine ⟨List.nodup_range.filter _, fun a ha => ?_, ?_⟩
    · have := List.mem_range.1 (List.mem_filter.1 ha).1
      omega
    · rw [renumber_length, filterMap_get_length]
      exact fun i hi => List.mem_range.1 (List.mem_filter.1 hi).1
  · simp only [if_true]
    exact ⟨List.nodup_range, fun a ha => List.mem_range.1 ha, by simp [h]⟩

/-! ## Cells -/

theorem cells_eq [Zero K] (ws : List (ℕ × ℕ × K)) (E x0 : ℕ → ℕ → K)
    (h1 : ∀ w ∈ ws, E w.1 w.2.1 = w.2.2) (r c : ℕ) :
    ((∃ w ∈ ws, w.1 = r ∧ w.2.1 = c) ∨ x0 r c = E r c) →
    ws.foldl (fun x w r c => if r = w.1 ∧ c = w.2.1 then w.2.2 else x r c) x0 r c = E r c := by
  induction ws generalizing x0 with
  | nil => intro h; simpa using h
  | cons w ws ih =>
    intro h
    rw [List.foldl_cons]
    apply ih _ (fun v hv => h1 v (by simp [hv]))
    by_cases hw : r = w.1 ∧ c = w.2.1
    · right
      rw [if_pos hw, hw.1, hw.2, h1 w (by simp)]
    · rcases h with ⟨v, hv, hv1, hv2⟩ | h
      · rcases List.mem_cons.1 hv with rfl | hv
        · exact absurd ⟨hv1.symm, hv2.symm⟩ hw
        · exact .inl ⟨v, hv, hv1, hv2⟩
      · right
        rw [if_neg hw, h]

/-- Columns before part `n`. -/
def before (parts : List (Part K)) (n : ℕ) : ℕ := ((parts.take n).map (·.nFeat)).sum

theorem blocks_before (parts : List (Part K)) (f : Part K → List K)
    (hf : ∀ p ∈ parts, (f p).length = p.nFeat) (n : ℕ) :
    ((parts.take n).flatMap f).length = before parts n := by
  rw [List.length_flatMap, before]
  congr 1
  apply List.map_congr_left
  exact fun p hp => hf p (List.mem_of_mem_take hp)

theorem block_get (parts : List (Part K)) (f : Part K → List K)
    (hf : ∀ p ∈ parts, (f p).length = p.nFeat) (n k : ℕ) (p : Part K) (v : K)
    (hp : parts[n]? = some p) (hv : (f p)[k]? = some v) :
    (parts.flatMap f)[before parts n + k]? = some v := by
  rw [← blocks_before parts f hf]
  exact Mlp.flatMap_get f parts n k p v hp hv

theorem block_decomp (parts : List (Part K)) (f : Part K → List K)
    (hf : ∀ p ∈ parts, (f p).length = p.nFeat) (c : ℕ) (v : K)
    (h : (parts.flatMap f)[c]? = some v) :
    ∃ (n : ℕ) (p : Part K) (k : ℕ), parts[n]? = some p ∧ (f p)[k]? = some v ∧
      c = before parts n + k := by
  obtain ⟨n, p, k, h1, h2, h3⟩ := Mlp.flatMap_decomp f parts c v h
  exact ⟨n, p, k, h1, h2, by rw [h3, blocks_before parts f hf]⟩

theorem getD_mem_length {n : ℕ} (l : List (List K)) (i : ℕ) (hi : i < l.length)
    (h : ∀ r ∈ l, r.length = n) : (l.getD i []).length = n := by
  rw [List.getD_eq_getElem?_getD, List.getElem?_eq_getElem hi]
  exact h _ (List.getElem_mem hi)

theorem forceBlock_length [Zero K] (p : Part K) (n a c : ℕ) (hw : p.WF n) (hc : c < 3) :
    (forceBlock p a c).length = p.nFeat := by
  unfold forceBlock
  split
  · rename_i h
    have := List.idxOf_lt_length_iff.2 h
    exact getD_mem_length _ _ (by rw [hw.2.2.2.1]; omega) hw.2.2.2.2.1
  · simp

theorem tot_flatMap {α β : Type} (L : List (α × Bool)) (g : α → List β) (sz : α → ℕ)
    (h : ∀ q ∈ L, (g q.1).length = sz q.1) :
    (L.flatMap fun q => if q.2 then g q.1 else []).length = tot (L.map fun q => (sz q.1, q.2)) := by
  induction L with
  | nil => rfl
  | cons q L ih =>
    rw [List.flatMap_cons, List.length_append, ih fun r hr => h r (by simp [hr]), List.map_cons,
      tot_cons]
    have := h q (by simp)
    cases hq : q.2 <;> simp [this]

/-- What the sub-models contribute to a structure. -/
def partsOf (subs : List (CSub A P K)) (st : CStr A P) : List (Part K) :=
  subs.map fun s =>
    let act := cxxActive s.typeFull s.typeIndices st.types st.positions
    ⟨s.nFeat, act.atoms, s.run st.axis act.positions act.types⟩

/-- Sizes of what `Model::run` returns. -/
def CSub.WF (s : CSub A P K) : Prop :=
  ∀ (a : A) (pos : List P) (types : List ℕ),
    (s.run a pos types).xe.length = s.nFeat ∧
    (s.run a pos types).xf.length = 3 * types.length ∧
    (∀ r ∈ (s.run a pos types).xf, r.length = s.nFeat) ∧
    (s.run a pos types).xs.length = 6 ∧ ∀ r ∈ (s.run a pos types).xs, r.length = s.nFeat

theorem partsOf_WF (subs : List (CSub A P K)) (st : CStr A P) (hs : ∀ s ∈ subs, s.WF)
    (hst : st.types.length = st.positions.length) :
    ∀ p ∈ partsOf subs st, p.WF st.positions.length := by
  intro p hp
  obtain ⟨s, h, rfl⟩ := List.mem_map.1 hp
  obtain ⟨h1, h2, h3⟩ := cxxActive_atoms s.typeFull s.typeIndices st.types st.positions hst
  obtain ⟨g1, g2, g3, g4, g5⟩ := hs s h st.axis
    (cxxActive s.typeFull s.typeIndices st.types st.positions).positions
    (cxxActive s.typeFull s.typeIndices st.types st.positions).types
  exact ⟨h1, h2, g1, by rw [← h3]; exact g2, g3, g4, g5⟩

theorem firstIndex_eq (subs : List (CSub A P K)) (st : CStr A P) (n : ℕ) (hn : n < subs.length) :
    firstIndex subs n = before (partsOf subs st) n := by
  unfold firstIndex before partsOf
  rw [← List.map_take, List.map_map]
  cases n with
  | zero => simp
  | succ n =>
    rw [if_neg (by omega), Nat.add_sub_cancel, List.getD_eq_getElem?_getD,
      cumulative_get _ _ _ (by simp; omega), ← List.map_take]
    simp only [Option.getD_some, Nat.zero_add]
    rfl

/-- All rows of the structures `S`. -/
def targets [Zero K] (subs : List (CSub A P K)) (S : List (CStr A P × Bool)) :
    List (StFeatures (List K) × Bool) :=
  S.map fun q => (hybridFeatures q.1.positions.length (partsOf subs q.1), q.2)

/-- Closed form of the row offsets. -/
structure IndexOf (ix : Index) (S : List (CStr A P × Bool)) : Prop where
  force : ix.force = S.map (·.2)
  xs : ix.xsBegin = begins (S.map fun q => (6, q.2)) S.length
  xf : ix.xfBegin = begins (S.map fun q => (3 * q.1.positions.length, q.2))
    (S.length + tot (S.map fun q => (6, q.2)))

theorem xs_offset {ix : Index} {S : List (CStr A P × Bool)} (h : IndexOf ix S) (i : ℕ)
    (st : CStr A P) (hi : S[i]? = some (st, true)) :
    (ix.xsBegin.getD i (-1)).toNat = S.length + tot ((S.take i).map fun q => (6, q.2)) := by
  rw [h.xs, begins_getD _ _ i (6, true) (by rw [List.getElem?_map, hi]; rfl), List.map_take]
  simp only [if_true, Int.toNat_natCast]

theorem xf_offset {ix : Index} {S : List (CStr A P × Bool)} (h : IndexOf ix S) (i : ℕ)
    (st : CStr A P) (hi : S[i]? = some (st, true)) :
    (ix.xfBegin.getD i (-1)).toNat = S.length + tot (S.map fun q => (6, q.2)) +
      tot ((S.take i).map fun q => (3 * q.1.positions.length, q.2)) := by
  rw [h.xf, begins_getD _ _ i (3 * st.positions.length, true)
    (by rw [List.getElem?_map, hi]; rfl), List.map_take]
  simp only [if_true, Int.toNat_natCast]

/-- Stress rows of the structures. -/
def sPart [Zero K] (subs : List (CSub A P K)) (q : CStr A P × Bool) : List (List K) :=
  if q.2 then (List.range 6).map (hybridStressRow (partsOf subs q.1)) else []

/-- Force rows of the structures. -/
def fPart [Zero K] (subs : List (CSub A P K)) (q : CStr A P × Bool) : List (List K) :=
  if q.2 then (List.range (3 * q.1.positions.length)).map fun k =>
    hybridForceRow (partsOf subs q.1) (k / 3) (k % 3) else []

theorem targets_rows [Zero K] (subs : List (CSub A P K)) (S : List (CStr A P × Bool)) :
    featureRows (targets subs S) = (S.map fun q => hybridEnergyRow (partsOf subs q.1)) ++
      S.flatMap (sPart subs) ++ S.flatMap (fPart subs) := by
  unfold featureRows targets
  rw [List.map_map, List.flatMap_map, List.flatMap_map]
  rfl

theorem sPart_length [Zero K] (subs : List (CSub A P K)) (S : List (CStr A P × Bool)) :
    (S.flatMap (sPart subs)).length = tot (S.map fun q => (6, q.2)) :=
  tot_flatMap S (fun st => (List.range 6).map (hybridStressRow (partsOf subs st))) (fun _ => 6)
    (by simp)

theorem fPart_length [Zero K] (subs : List (CSub A P K)) (S : List (CStr A P × Bool)) :
    (S.flatMap (fPart subs)).length =
      tot (S.map fun q => (3 * q.1.positions.length, q.2)) :=
  tot_flatMap S (fun st => (List.range (3 * st.positions.length)).map fun k =>
    hybridForceRow (partsOf subs st) (k / 3) (k % 3)) (fun st => 3 * st.positions.length) (by simp)

theorem row_e [Zero K] (subs : List (CSub A P K)) (S : List (CStr A P × Bool)) (i : ℕ)
    (q : CStr A P × Bool) (hi : S[i]? = some q) :
    (featureRows (targets subs S))[i]? = some (hybridEnergyRow (partsOf subs q.1)) := by
  have hlt := (List.getElem?_eq_some_iff.1 hi).1
  rw [targets_rows, List.append_assoc, List.getElem?_append_left (by simpa using hlt),
    List.getElem?_map, hi]
  rfl

theorem row_s [Zero K] {ix : Index} (subs : List (CSub A P K)) (S : List (CStr A P × Bool))
    (h : IndexOf ix S) (i t : ℕ) (st : CStr A P) (hi : S[i]? = some (st, true)) (ht : t < 6) :
    (featureRows (targets subs S))[(ix.xsBegin.getD i (-1)).toNat + t]? =
      some (hybridStressRow (partsOf subs st) t) := by
  rw [xs_offset h i st hi, targets_rows, ← sPart_length subs]
  have hg := Mlp.flatMap_get (sPart subs) S i t (st, true) (hybridStressRow (partsOf subs st) t) hi
    (by simp [sPart, ht])
  have hlt := (List.getElem?_eq_some_iff.1 hg).1
  rw [List.getElem?_append_left (by simp at hlt ⊢; omega),
    List.getElem?_append_right (by simp; omega), ← hg]
  congr 1
  simp
  omega

theorem row_f [Zero K] {ix : Index} (subs : List (CSub A P K)) (S : List (CStr A P × Bool))
    (h : IndexOf ix S) (i k : ℕ) (st : CStr A P) (hi : S[i]? = some (st, true))
    (hk : k < 3 * st.positions.length) :
    (featureRows (targets subs S))[(ix.xfBegin.getD i (-1)).toNat + k]? =
      some (hybridForceRow (partsOf subs st) (k / 3) (k % 3)) := by
  rw [xf_offset h i st hi, targets_rows, ← fPart_length subs, ← sPart_length subs S]
  have hg := Mlp.flatMap_get (fPart subs) S i k (st, true)
    (hybridForceRow (partsOf subs st) (k / 3) (k % 3)) hi (by simp [fPart, hk])
  rw [List.getElem?_append_right (by simp; omega), ← hg]
  congr 1
  simp
  omega

theorem row_inv [Zero K] {ix : Index} (subs : List (CSub A P K)) (S : List (CStr A P × Bool))
    (h : IndexOf ix S) (r : ℕ) (row : List K) (hr : (featureRows (targets subs S))[r]? = some row) :
    ∃ (i : ℕ) (q : CStr A P × Bool), S[i]? = some q ∧
      ((r = i ∧ row = hybridEnergyRow (partsOf subs q.1)) ∨ (q.2 = true ∧
        ((∃ t < 6, r = (ix.xsBegin.getD i (-1)).toNat + t ∧
          row = hybridStressRow (partsOf subs q.1) t) ∨
        ∃ k < 3 * q.1.positions.length, r = (ix.xfBegin.getD i (-1)).toNat + k ∧
          row = hybridForceRow (partsOf subs q.1) (k / 3) (k % 3)))) := by
  rw [targets_rows, List.append_assoc] at hr
  by_cases h1 : r < S.length
  · rw [List.getElem?_append_left (by simpa using h1), List.getElem?_map,
      List.getElem?_eq_getElem h1] at hr
    exact ⟨r, S[r], List.getElem?_eq_getElem h1, .inl ⟨rfl, by simpa using hr.symm⟩⟩
  · rw [List.getElem?_append_right (by simp; omega)] at hr
    simp only [List.length_map] at hr
    by_cases h2 : r - S.length < (S.flatMap (sPart subs)).length
    · rw [List.getElem?_append_left h2] at hr
      obtain ⟨i, q, k, g1, g2, g3⟩ := Mlp.flatMap_decomp _ _ _ _ hr
      obtain ⟨st, f⟩ := q
      cases f
      · simp [sPart] at g2
      · refine ⟨i, (st, true), g1, .inr ⟨rfl, .inl ⟨k, ?_, ?_, ?_⟩⟩⟩
        · have := (List.getElem?_eq_some_iff.1 g2).1
          simpa [sPart] using this
        · rw [xs_offset h i st g1, ← sPart_length subs]
          omega
        · have hk : k < 6 := by
            have := (List.getElem?_eq_some_iff.1 g2).1
            simpa [sPart] using this
          simpa [sPart, hk, eq_comm] using g2
    · rw [List.getElem?_append_right (by omega)] at hr
      obtain ⟨i, q, k, g1, g2, g3⟩ := Mlp.flatMap_decomp _ _ _ _ hr
      obtain ⟨st, f⟩ := q
      cases f
      · simp [fPart] at g2
      · have hk : k < 3 * st.positions.length := by
          have := (List.getElem?_eq_some_iff.1 g2).1
          simpa [fPart] using this
        refine ⟨i, (st, true), g1, .inr ⟨rfl, .inr ⟨k, hk, ?_, ?_⟩⟩⟩
        · rw [xf_offset h i st g1, ← sPart_length subs S, ← fPart_length subs]
          omega
        · simpa [fPart, hk, eq_comm] using g2

/-- The cells assigned by the loop, with their meaning. -/
theorem mem_strWrites {ix : Index} (subs : List (CSub A P K)) (st : CStr A P) (i : ℕ)
    (w : ℕ × ℕ × K) :
    w ∈ strWrites ix subs st i ↔ ∃ (n : ℕ) (p : Part K) (k : ℕ), (partsOf subs st)[n]? = some p ∧
      w.2.1 = before (partsOf subs st) n + k ∧
      ((w.1 = i ∧ p.feat.xe[k]? = some w.2.2) ∨ (ix.force[i]? = some true ∧
        ((∃ (j : ℕ) (row : List K), p.feat.xf[j]? = some row ∧
          w.1 = (ix.xfBegin.getD i (-1)).toNat + (3 * p.atoms.getD (j / 3) 0 + j % 3) ∧
          row[k]? = some w.2.2) ∨
        ∃ (t : ℕ) (row : List K), p.feat.xs[t]? = some row ∧
          w.1 = (ix.xsBegin.getD i (-1)).toNat + t ∧ row[k]? = some w.2.2))) := by
  obtain ⟨r, c, v⟩ := w
  unfold strWrites
  rw [List.mem_flatMap]
  constructor
  · rintro ⟨⟨s, n⟩, hs, hw⟩
    have hs := List.mem_zipIdx_iff_getElem?.1 hs
    simp only at hs hw
    have hn := (List.getElem?_eq_some_iff.1 hs).1
    refine ⟨n, _, c - firstIndex subs n, by rw [partsOf, List.getElem?_map, hs]; rfl, ?_⟩
    rw [← firstIndex_eq subs st n hn]
    unfold subWrites at hw
    rw [List.mem_append] at hw
    rcases hw with hw | hw
    · obtain ⟨⟨v', k⟩, hk, e⟩ := List.mem_map.1 hw
      simp only [Prod.mk.injEq] at e
      obtain ⟨rfl, rfl, rfl⟩ := e
      have := List.mem_zipIdx_iff_getElem?.1 hk
      exact ⟨by simp, .inl ⟨rfl, by simpa using this⟩⟩
    · split at hw
      · rename_i hf
        rcases List.mem_append.1 hw with hw | hw
        · obtain ⟨⟨row, j⟩, hj, hw⟩ := List.mem_flatMap.1 hw
          obtain ⟨⟨v', k⟩, hk, e⟩ := List.mem_map.1 hw
          simp only [Prod.mk.injEq] at e
          obtain ⟨rfl, rfl, rfl⟩ := e
          have h1 := List.mem_zipIdx_iff_getElem?.1 hj
          have h2 := List.mem_zipIdx_iff_getElem?.1 hk
          exact ⟨by simp, .inr ⟨hf, .inl ⟨j, row, h1, rfl, by simpa using h2⟩⟩⟩
        · obtain ⟨⟨row, j⟩, hj, hw⟩ := List.mem_flatMap.1 hw
          obtain ⟨⟨v', k⟩, hk, e⟩ := List.mem_map.1 hw
          simp only [Prod.mk.injEq] at e
          obtain ⟨rfl, rfl, rfl⟩ := e
          have h1 := List.mem_zipIdx_iff_getElem?.1 hj
          have h2 := List.mem_zipIdx_iff_getElem?.1 hk
          exact ⟨by simp, .inr ⟨hf, .inr ⟨j, row, h1, rfl, by simpa using h2⟩⟩⟩
      · simp at hw
  · rintro ⟨n, p, k, hp, hc, hk⟩
    rw [partsOf, List.getElem?_map, Option.map_eq_some_iff] at hp
    obtain ⟨s, hs, rfl⟩ := hp
    have hn := (List.getElem?_eq_some_iff.1 hs).1
    rw [← firstIndex_eq subs st n hn] at hc
    simp only at hc hk
    subst hc
    refine ⟨(s, n), List.mem_zipIdx_iff_getElem?.2 hs, ?_⟩
    unfold subWrites
    rw [List.mem_append]
    rcases hk with ⟨rfl, hk⟩ | ⟨hf, ⟨j, row, h1, rfl, h2⟩ | ⟨j, row, h1, rfl, h2⟩⟩
    · exact .inl (List.mem_map.2 ⟨(v, k), List.mem_zipIdx_iff_getElem?.2 hk, rfl⟩)
    · right
      rw [if_pos hf]
      exact List.mem_append_left _ (List.mem_flatMap.2 ⟨(row, j),
        List.mem_zipIdx_iff_getElem?.2 h1, List.mem_map.2 ⟨(v, k),
        List.mem_zipIdx_iff_getElem?.2 h2, rfl⟩⟩)
    · right
      rw [if_pos hf]
      exact List.mem_append_right _ (List.mem_flatMap.2 ⟨(row, j),
        List.mem_zipIdx_iff_getElem?.2 h1, List.mem_map.2 ⟨(v, k),
        List.mem_zipIdx_iff_getElem?.2 h2, rfl⟩⟩)

/-- The assignments of the loop: each stores the value that belongs into its cell, and the cells that
are not assigned are zero. -/
theorem hybrid_cells [Zero K] (ix : Index) (subs : List (CSub A P K))
    (S : List (CStr A P × Bool)) (h : IndexOf ix S) (hs : ∀ s ∈ subs, s.WF)
    (hst : ∀ q ∈ S, q.1.types.length = q.1.positions.length)
    (sts : ℕ → CStr A P)
    (hsts : ∀ (i : ℕ) (q : CStr A P × Bool), S[i]? = some q → sts i = q.1)
    (order : List ℕ) (ho : order.Perm (List.range S.length)) :
    (∀ w ∈ order.flatMap fun i => strWrites ix subs (sts i) i,
      ((featureRows (targets subs S))[w.1]?.getD []).getD w.2.1 0 = w.2.2) ∧
    ∀ r c, (∃ w ∈ order.flatMap fun i => strWrites ix subs (sts i) i, w.1 = r ∧ w.2.1 = c) ∨
      (0 : K) = ((featureRows (targets subs S))[r]?.getD []).getD c 0 := by
  constructor
  · intro w hw
    obtain ⟨i, hi, hw⟩ := List.mem_flatMap.1 hw
    have hi : i < S.length := List.mem_range.1 (ho.mem_iff.1 hi)
    obtain ⟨⟨st, f⟩, hSi⟩ : ∃ q, S[i]? = some q := ⟨_, List.getElem?_eq_getElem hi⟩
    rw [hsts i _ hSi] at hw
    have hWF := partsOf_WF subs st hs (hst _ (List.mem_of_getElem? hSi))
    obtain ⟨n, p, k, hp, hc, hk⟩ := (mem_strWrites subs st i w).1 hw
    have hpm := List.mem_of_getElem? hp
    obtain ⟨w1, w2, w3, w4, w5, w6, w7⟩ := hWF p hpm
    rw [hc]
    rcases hk with ⟨hr, hk⟩ | ⟨hf, hk⟩
    · rw [hr, row_e subs S i _ hSi, Option.getD_some, List.getD_eq_getElem?_getD, hybridEnergyRow,
        block_get _ _ (fun p hp => (hWF p hp).2.2.1) n k p _ hp hk]
      rfl
    · rw [h.force, List.getElem?_map, hSi, Option.map_some, Option.some.injEq] at hf
      simp only at hf
      subst hf
      rcases hk with ⟨j, row, h1, hr, h2⟩ | ⟨t, row, h1, hr, h2⟩
      · have hj := (List.getElem?_eq_some_iff.1 h1).1
        rw [w4] at hj
        have hj3 : j / 3 < p.atoms.length := by omega
        have hget : p.atoms.getD (j / 3) 0 = p.atoms[j / 3] := by
          rw [List.getD_eq_getElem?_getD, List.getElem?_eq_getElem hj3]; rfl
        have hmem : p.atoms[j / 3] ∈ p.atoms := List.getElem_mem _
        have hlt := w2 _ hmem
        rw [hget] at hr
        rw [hr, row_f subs S h i _ st hSi (by omega), Option.getD_some,
          List.getD_eq_getElem?_getD, hybridForceRow,
          block_get _ _ (fun q hq => forceBlock_length q _ _ _ (hWF q hq) (by omega)) n k p w.2.2 hp]
        · rfl
        · unfold forceBlock
          have e1 : (3 * p.atoms[j / 3] + j % 3) / 3 = p.atoms[j / 3] := by omega
          have e2 : (3 * p.atoms[j / 3] + j % 3) % 3 = j % 3 := by omega
          rw [e1, e2, if_pos hmem, w1.idxOf_getElem _ _]
          have e3 : 3 * (j / 3) + j % 3 = j := by omega
          rw [e3, List.getD_eq_getElem?_getD, h1]
          exact h2
      · have ht := (List.getElem?_eq_some_iff.1 h1).1
        rw [w6] at ht
        rw [hr, row_s subs S h i t st hSi ht, Option.getD_some, List.getD_eq_getElem?_getD,
          hybridStressRow, block_get _ _ (fun q hq => getD_mem_length _ _
            (by rw [(hWF q hq).2.2.2.2.2.1]; exact ht) (hWF q hq).2.2.2.2.2.2) n k p w.2.2 hp]
        · rfl
        · rw [List.getD_eq_getElem?_getD, h1]
          exact h2
  · intro r c
    by_cases hz : (0 : K) = ((featureRows (targets subs S))[r]?.getD []).getD c 0
    · exact .inr hz
    · left
      cases hrow : (featureRows (targets subs S))[r]? with
      | none => rw [hrow] at hz; simp at hz
      | some row =>
        rw [hrow, Option.getD_some, List.getD_eq_getElem?_getD] at hz
        cases hv : row[c]? with
        | none => rw [hv] at hz; simp at hz
        | some v =>
          rw [hv, Option.getD_some] at hz
          obtain ⟨i, ⟨st, f⟩, hSi, hcase⟩ := row_inv subs S h r row hrow
          have hi := (List.getElem?_eq_some_iff.1 hSi).1
          have hWF := partsOf_WF subs st hs (hst _ (List.mem_of_getElem? hSi))
          have hmem : ∀ w ∈ strWrites ix subs st i,
              w ∈ order.flatMap fun i => strWrites ix subs (sts i) i := fun w hw =>
            List.mem_flatMap.2 ⟨i, ho.mem_iff.2 (List.mem_range.2 hi), by rw [hsts i _ hSi]; exact hw⟩
          have hforce : f = true → ix.force[i]? = some true := by
            rintro rfl
            rw [h.force, List.getElem?_map, hSi]; rfl
          rcases hcase with ⟨hr, he⟩ | ⟨hf, ⟨t, ht, hr, he⟩ | ⟨q, hq, hr, he⟩⟩
          · simp only at he
            rw [he, hybridEnergyRow] at hv
            obtain ⟨n, p, k, g1, g2, g3⟩ := block_decomp _ _ (fun p hp => (hWF p hp).2.2.1) _ _ hv
            exact ⟨(r, c, v), hmem _ ((mem_strWrites subs st i _).2
              ⟨n, p, k, g1, g3, .inl ⟨hr, g2⟩⟩), rfl, rfl⟩
          · simp only at he
            rw [he, hybridStressRow] at hv
            obtain ⟨n, p, k, g1, g2, g3⟩ := block_decomp _ _ (fun q hq => getD_mem_length _ _
              (by rw [(hWF q hq).2.2.2.2.2.1]; exact ht) (hWF q hq).2.2.2.2.2.2) _ _ hv
            have ht2 : t < p.feat.xs.length := by
              rw [(hWF p (List.mem_of_getElem? g1)).2.2.2.2.2.1]; exact ht
            rw [List.getD_eq_getElem?_getD, List.getElem?_eq_getElem ht2] at g2
            exact ⟨(r, c, v), hmem _ ((mem_strWrites subs st i _).2
              ⟨n, p, k, g1, g3, .inr ⟨hforce hf, .inr ⟨t, _, List.getElem?_eq_getElem ht2, hr, g2⟩⟩⟩),
              rfl, rfl⟩
          · simp only at he
            rw [he, hybridForceRow] at hv
            obtain ⟨n, p, k, g1, g2, g3⟩ := block_decomp _ _
              (fun p hp => forceBlock_length p _ _ _ (hWF p hp) (by omega)) _ _ hv
            obtain ⟨w1, w2, w3, w4, w5, w6, w7⟩ := hWF p (List.mem_of_getElem? g1)
            unfold forceBlock at g2
            split at g2
            · rename_i ha
              have hidx := List.idxOf_lt_length_iff.2 ha
              have hj : 3 * p.atoms.idxOf (q / 3) + q % 3 < p.feat.xf.length := by omega
              rw [List.getD_eq_getElem?_getD, List.getElem?_eq_getElem hj] at g2
              have e1 : (3 * p.atoms.idxOf (q / 3) + q % 3) / 3 = p.atoms.idxOf (q / 3) := by omega
              have e2 : (3 * p.atoms.idxOf (q / 3) + q % 3) % 3 = q % 3 := by omega
              refine ⟨(r, c, v), hmem _ ((mem_strWrites subs st i _).2
                ⟨n, p, k, g1, g3, .inr ⟨hforce hf, .inl
                  ⟨_, _, List.getElem?_eq_getElem hj, ?_, g2⟩⟩⟩), rfl, rfl⟩
              have e3 : p.atoms.getD (p.atoms.idxOf (q / 3)) 0 = q / 3 := by
                rw [List.getD_eq_getElem?_getD, List.getElem?_idxOf ha, Option.getD_some]
              rw [e1, e2, e3]
              simp only
              omega
            · have := (List.getElem?_eq_some_iff.1 g2)
              obtain ⟨_, hv⟩ := this
              rw [List.getElem_replicate] at hv
              exact absurd hv hz

theorem fillHybrid_rows [Zero K] (ix : Index) (subs : List (CSub A P K))
    (S : List (CStr A P × Bool)) (h : IndexOf ix S) (hs : ∀ s ∈ subs, s.WF)
    (hst : ∀ q ∈ S, q.1.types.length = q.1.positions.length)
    (sts : ℕ → CStr A P)
    (hsts : ∀ (i : ℕ) (q : CStr A P × Bool), S[i]? = some q → sts i = q.1)
    (order : List ℕ) (ho : order.Perm (List.range S.length)) (r c : ℕ) :
    fillHybrid ix subs sts order r c =
      ((featureRows (targets subs S))[r]?.getD []).getD c 0 := by
  obtain ⟨h1, h2⟩ := hybrid_cells ix subs S h hs hst sts hsts order ho
  exact cells_eq _ (fun r c => ((featureRows (targets subs S))[r]?.getD []).getD c 0) _ h1 r c (h2 r c)

theorem setIndex_IndexOf (L : List (List (CStr A P) × Bool)) (ix : Index)
    (hix : setIndex (L.map fun d => (d.1.length, d.2))
      (L.flatMap fun d => d.1.map fun st => st.positions.length) = .ok ix) :
    IndexOf ix (L.flatMap fun d => d.1.map fun st => (st, d.2)) := by
  have h := setIndex_eq (L.map fun d => (d.1.map fun st => st.positions.length, d.2))
  rw [List.map_map, List.flatMap_map, List.flatMap_map] at h
  have e1 : L.map ((fun d : List ℕ × Bool => (d.1.length, d.2)) ∘
      fun d : List (CStr A P) × Bool => (d.1.map fun st => st.positions.length, d.2)) =
      L.map fun d => (d.1.length, d.2) := by
    apply List.map_congr_left
    intro d _
    simp
  have e2 : (L.flatMap fun d => (d.1.map fun st => st.positions.length).map fun a => (a, d.2)) =
      (L.flatMap fun d => d.1.map fun st => (st, d.2)).map fun q => (q.1.positions.length, q.2) := by
    rw [List.map_flatMap]
    apply List.flatMap_congr
    intro d _
    simp
  rw [e1, e2] at h
  rw [h] at hix
  simp only [Except.ok.injEq] at hix
  subst hix
  refine ⟨?_, ?_, ?_⟩
  · simp
  · simp [List.map_map, Function.comp_def]
  · simp [List.map_map, Function.comp_def]

end Verif.HybridEval
