import Verif.Spec.Rows
import Mathlib.Data.List.FinRange
import Mathlib.Algebra.BigOperators.Group.Finset.Basic
import Mathlib.Tactic.Ring

namespace Verif.Rows
open Verif.Dataset Verif.Sequential Verif.Spec
variable {p : ℕ} {K : Type}

/-! ## Slices of concatenations -/

theorem updSlice_mid {α β : Type} (op : α → β → α) (A B C : List α) (vals : List β)
    (h : vals.length = B.length) :
    updSlice op (A ++ B ++ C) (A.length : ℤ) ((A.length : ℤ) + (vals.length : ℤ)) vals =
      .ok (A ++ (B.zip vals).map (fun q => op q.1 q.2) ++ C) := by
  have h1 : clip (A ++ B ++ C).length (A.length : ℤ) = A.length := by
    unfold clip
    rw [if_neg (by omega)]
    simp only [List.length_append, Int.toNat_natCast]
    omega
  have h2 : clip (A ++ B ++ C).length ((A.length : ℤ) + (vals.length : ℤ)) = A.length + B.length := by
    unfold clip
    rw [if_neg (by omega)]
    simp only [List.length_append]
    omega
  unfold updSlice
  simp only [h1, h2]
  rw [if_pos (by omega)]
  congr 1
  have t1 : (A ++ B ++ C).take A.length = A := by simp
  have t2 : (A ++ B ++ C).drop A.length = B ++ C := by simp
  have t3 : (A ++ B ++ C).drop (A.length + vals.length) = C := by
    rw [h, ← List.length_append, List.drop_left]
  have t4 : (B ++ C).zip vals = B.zip vals := by
    rw [show vals = vals ++ [] by simp, List.zip_append (by simp [h])]
    simp
  rw [t1, t2, t3, t4]

/-- A cell of the three arrays: feature row, target, weight. -/
def toXYW (c : List (Vec p K × K × K)) : XYW p K := ⟨c.map (·.1), c.map (·.2.1), c.map (·.2.2)⟩

/-- Cell before weighting. -/
def initCell [Zero K] [One K] (r : Row p K) : Vec p K × K × K := (r.x, 0, 1)
/-- Cell after weighting. -/
def doneCell [Mul K] (r : Row p K) : Vec p K × K × K := (fun a => r.x a * r.w, r.w * r.y, r.w)

theorem zip_map_same {α β γ : Type} (R : List α) (f : α → β) (g : α → γ) :
    (R.map f).zip (R.map g) = R.map fun r => (f r, g r) := by
  induction R with
  | nil => rfl
  | cons a R ih => simp [ih]

theorem assignBlock_rows [Semiring K] (A C : List (Vec p K × K × K)) (R : List (Row p K)) (b e : ℤ)
    (hb : b = A.length) (he : e = b + R.length) (v t : List K) (hv : v = R.map (·.w))
    (ht : t = R.map (·.y)) :
    assignBlock (toXYW (A ++ R.map initCell ++ C)) b e v t =
      .ok (toXYW (A ++ R.map doneCell ++ C)) := by
  subst hv ht he hb
  unfold assignBlock toXYW
  have hw := updSlice_mid (fun _ n => n) (A.map (·.2.2)) (((R.map initCell)).map (·.2.2))
    (C.map (·.2.2)) (R.map (·.w)) (by simp)
  have hy := updSlice_mid (fun _ n => n) (A.map (·.2.1)) (((R.map initCell)).map (·.2.1))
    (C.map (·.2.1)) (((R.map (·.w)).zip (R.map (·.y))).map fun q => q.1 * q.2) (by simp)
  have hx := updSlice_mid (fun (r : Vec p K) (n : K) => fun a => r a * n) (A.map (·.1))
    (((R.map initCell)).map (·.1)) (C.map (·.1)) (R.map (·.w)) (by simp)
  simp only [List.length_map, List.length_zip, Nat.min_self] at hw hy hx
  simp only [List.map_append]
  rw [hw, hy, hx]
  simp only [bind, Except.bind, pure, Except.pure, List.map_map, zip_map_same]
  rfl

theorem zeroBlock_rows [Semiring K] (A C : List (Vec p K × K × K)) (R : List (Row p K)) (b e : ℤ)
    (n : ℕ) (hb : b = A.length) (hn : n = R.length) (he : e = b + n) (h0 : ∀ r ∈ R, r.w = 0) :
    zeroBlock (toXYW (A ++ R.map initCell ++ C)) b e n =
      .ok (toXYW (A ++ R.map doneCell ++ C)) := by
  subst hn he hb
  unfold zeroBlock toXYW
  have hw := updSlice_mid (fun _ n => n) (A.map (·.2.2)) (((R.map initCell)).map (·.2.2))
    (C.map (·.2.2)) (List.replicate R.length (0 : K)) (by simp)
  have hy := updSlice_mid (fun _ n => n) (A.map (·.2.1)) (((R.map initCell)).map (·.2.1))
    (C.map (·.2.1)) (List.replicate R.length (0 : K)) (by simp)
  have hx := updSlice_mid (fun _ n => n) (A.map (·.1)) (((R.map initCell)).map (·.1))
    (C.map (·.1)) (List.replicate R.length fun _ => (0 : K)) (by simp)
  simp only [List.length_map, List.length_replicate] at hw hy hx
  simp only [List.map_append]
  rw [hw, hy, hx]
  have hrep : ∀ {α : Type} (c : α), List.replicate R.length c = R.map fun _ => c := by
    intro α c; simp
  simp only [bind, Except.bind, pure, Except.pure, List.map_map, hrep, zip_map_same]
  congr 2
  · congr 2
    apply List.map_congr_left
    intro r hr
    simp [doneCell, h0 r hr]
  · congr 2
    apply List.map_congr_left
    intro r hr
    simp [doneCell, h0 r hr]
  · congr 2
    apply List.map_congr_left
    intro r hr
    simp [doneCell, h0 r hr]

/-! ## Single writes in any order -/

/-- Perform single writes one after the other. -/
def applyWrites {α : Type} (x : List α) (ws : List (ℕ × α)) : List α :=
  ws.foldl (fun x w => x.set w.1 w.2) x

theorem applyWrites_length {α : Type} (ws : List (ℕ × α)) (x : List α) :
    (applyWrites x ws).length = x.length := by
  induction ws generalizing x with
  | nil => rfl
  | cons w ws ih => simp only [applyWrites, List.foldl_cons] at ih ⊢; rw [ih]; simp

theorem applyWrites_not_mem {α : Type} (ws : List (ℕ × α)) (x : List α) (r : ℕ)
    (h : r ∉ ws.map (·.1)) : (applyWrites x ws)[r]? = x[r]? := by
  induction ws generalizing x with
  | nil => rfl
  | cons w ws ih =>
    simp only [List.map_cons, List.mem_cons, not_or] at h
    have := ih (x.set w.1 w.2) h.2
    simp only [applyWrites, List.foldl_cons] at this ⊢
    rw [this, List.getElem?_set_ne (fun e => h.1 e.symm)]

theorem applyWrites_mem {α : Type} (ws : List (ℕ × α)) (x : List α) (hn : (ws.map (·.1)).Nodup)
    (r : ℕ) (v : α) (h : (r, v) ∈ ws) (hr : r < x.length) : (applyWrites x ws)[r]? = some v := by
  induction ws generalizing x with
  | nil => cases h
  | cons w ws ih =>
    rw [List.map_cons, List.nodup_cons] at hn
    rcases List.mem_cons.mp h with h | h
    · subst h
      have := applyWrites_not_mem ws (x.set r v) r hn.1
      simp only [applyWrites, List.foldl_cons] at this ⊢
      rw [this]
      simp [hr]
    · have := ih (x.set w.1 w.2) hn.2 h (by simpa using hr)
      simpa [applyWrites, List.foldl_cons] using this

/-- If the writes are, in some order, "cell `i` gets `target[i]`", the result is `target`. -/
theorem applyWrites_perm {α : Type} (ws : List (ℕ × α)) (x target : List α)
    (hlen : x.length = target.length)
    (h : ws.Perm (target.zipIdx.map fun q => (q.2, q.1))) : applyWrites x ws = target := by
  have hn : (ws.map (·.1)).Nodup := by
    have := h.map (·.1)
    rw [this.nodup_iff, List.map_map]
    have e : (target.zipIdx.map ((fun q : ℕ × α => q.1) ∘ fun q : α × ℕ => (q.2, q.1)))
        = List.range' 0 target.length := by
      rw [← List.zipIdx_map_snd 0 target]
      rfl
    rw [e]
    exact List.nodup_range' ..
  apply List.ext_getElem?
  intro i
  by_cases hi : i < target.length
  · rw [applyWrites_mem ws x hn i target[i] _ (by omega), List.getElem?_eq_getElem hi]
    rw [h.mem_iff, List.mem_map]
    refine ⟨(target[i], i), ?_, rfl⟩
    rw [List.mem_zipIdx_iff_getElem?]
    exact List.getElem?_eq_getElem hi
  · rw [List.getElem?_eq_none (by rw [applyWrites_length]; omega), List.getElem?_eq_none (by omega)]

/-! ## Blocks at running offsets -/

/-- Sum of the sizes before `i`. -/
def offs (z : ℕ → ℕ) (i : ℕ) : ℕ := ((List.range i).map z).sum

theorem offs_succ (z : ℕ → ℕ) (i : ℕ) : offs z (i + 1) = offs z i + z i := by
  simp [offs, List.range_succ]

theorem blocks_length {α : Type} (z : ℕ → ℕ) (v : ℕ → List α) (n : ℕ) (hv : ∀ i < n, (v i).length = z i) :
    ((List.range n).flatMap v).length = offs z n := by
  induction n with
  | zero => rfl
  | succ n ih =>
    rw [List.range_succ, List.flatMap_append, List.length_append, ih (fun i hi => hv i (by omega)),
      offs_succ]
    simp [hv n (by omega)]

/-- Blocks written at their running offsets fill a contiguous range. -/
theorem blocks_zipIdx {α : Type} (z : ℕ → ℕ) (v : ℕ → List α) (b n : ℕ)
    (hv : ∀ i < n, (v i).length = z i) :
    (List.range n).flatMap (fun i => (v i).zipIdx (b + offs z i)) =
      ((List.range n).flatMap v).zipIdx b := by
  induction n with
  | zero => rfl
  | succ n ih =>
    have hv' : ∀ i < n, (v i).length = z i := fun i hi => hv i (by omega)
    rw [List.range_succ, List.flatMap_append, List.flatMap_append, ih hv', List.zipIdx_append,
      blocks_length z v n hv']
    simp

/-! ## First rows -/

/-- First rows of consecutive blocks `(size, present)`; `-1` for absent ones. -/
def begins : List (ℕ × Bool) → ℕ → List ℤ
  | [], _ => []
  | (s, f) :: r, b => (if f then (b : ℤ) else -1) :: begins r (if f then b + s else b)

/-- Total size of the present blocks. -/
def tot (l : List (ℕ × Bool)) : ℕ := (l.map fun q => if q.2 then q.1 else 0).sum

theorem tot_append (A B : List (ℕ × Bool)) : tot (A ++ B) = tot A + tot B := by
  simp [tot]

theorem tot_cons (q : ℕ × Bool) (B : List (ℕ × Bool)) :
    tot (q :: B) = (if q.2 then q.1 else 0) + tot B := by simp [tot]

theorem begins_append (A B : List (ℕ × Bool)) (b : ℕ) :
    begins (A ++ B) b = begins A b ++ begins B (b + tot A) := by
  induction A generalizing b with
  | nil => rfl
  | cons q A ih =>
    obtain ⟨s, f⟩ := q
    simp only [List.cons_append, begins, ih, tot_cons]
    cases f <;> simp [Nat.add_assoc]

theorem begins_length (A : List (ℕ × Bool)) (b : ℕ) : (begins A b).length = A.length := by
  induction A generalizing b with
  | nil => rfl
  | cons q A ih => obtain ⟨s, f⟩ := q; simp [begins, ih]

theorem begins_getD (A : List (ℕ × Bool)) (b i : ℕ) (q : ℕ × Bool) (h : A[i]? = some q) :
    (begins A b).getD i (-1) = if q.2 then ((b + tot (A.take i) : ℕ) : ℤ) else -1 := by
  induction A generalizing b i with
  | nil => cases h
  | cons q' A ih =>
    obtain ⟨s, f⟩ := q'
    cases i with
    | zero =>
      simp only [List.getElem?_cons_zero, Option.some.injEq] at h
      subst h
      simp [begins, tot]
    | succ i =>
      rw [List.getElem?_cons_succ] at h
      have := ih (if f then b + s else b) i h
      simp only [begins, List.getD_cons_succ, this, List.take_succ_cons, tot_cons]
      cases f <;> simp [Nat.add_assoc]

theorem tot_replicate (n : ℕ) (q : ℕ × Bool) : tot (List.replicate n q) = n * (if q.2 then q.1 else 0) := by
  simp [tot]

theorem stressInner_eq (force : Bool) (n i : ℕ) :
    stressInner force n i =
      (begins (List.replicate n (6, force)) i, i + tot (List.replicate n (6, force))) := by
  induction n generalizing i with
  | zero => rfl
  | succ n ih =>
    rw [stressInner, List.replicate_succ, begins, tot_cons]
    cases force
    · simp [ih]
    · simp [ih]
      omega

theorem stressLoop_eq (dss : List (ℕ × Bool)) (i : ℕ) :
    stressLoop dss i =
      (begins (dss.map fun d => (d.1 * 6, d.2)) i,
        begins (dss.flatMap fun d => List.replicate d.1 (6, d.2)) i,
        i + tot (dss.flatMap fun d => List.replicate d.1 (6, d.2)),
        tot (dss.flatMap fun d => List.replicate d.1 (6, d.2))) := by
  induction dss generalizing i with
  | nil => rfl
  | cons d dss ih =>
    obtain ⟨n, f⟩ := d
    simp only [stressLoop, stressInner_eq, ih, List.map_cons, List.flatMap_cons, begins_append,
      tot_append, begins, tot_replicate]
    cases f <;> simp [Nat.add_assoc]

theorem forceInner_eq (force : Bool) (l rest : List ℕ) (i : ℕ) :
    forceInner force l.length (l ++ rest) i =
      .ok (begins (l.map fun a => (3 * a, force)) i, rest,
        i + tot (l.map fun a => (3 * a, force)), tot (l.map fun a => (3 * a, force))) := by
  induction l generalizing i with
  | nil => rfl
  | cons a l ih =>
    rw [List.length_cons, List.cons_append, forceInner]
    cases force
    · simp only [Bool.false_eq_true, if_false]
      rw [ih]
      simp [bind, Except.bind, pure, Except.pure, begins, tot_cons]
    · simp only [if_true]
      rw [ih]
      simp [bind, Except.bind, pure, Except.pure, begins, tot_cons, Nat.add_assoc]

theorem tot_map_force (l : List ℕ) (f : Bool) :
    tot (l.map fun a => (3 * a, f)) = if f then 3 * l.sum else 0 := by
  induction l with
  | nil => simp [tot]
  | cons a l ih => rw [List.map_cons, tot_cons, ih]; cases f <;> simp [Nat.mul_add]

theorem forceLoop_eq (L : List (List ℕ × Bool)) (i : ℕ) :
    forceLoop (L.map fun d => (d.1.length, d.2)) (L.flatMap (·.1)) i =
      .ok (begins (L.map fun d => (3 * d.1.sum, d.2)) i,
        begins (L.flatMap fun d => d.1.map fun a => (3 * a, d.2)) i,
        tot (L.flatMap fun d => d.1.map fun a => (3 * a, d.2))) := by
  induction L generalizing i with
  | nil => rfl
  | cons d L ih =>
    obtain ⟨l, f⟩ := d
    simp only [List.map_cons, List.flatMap_cons, forceLoop, forceInner_eq, bind, Except.bind, ih,
      pure, Except.pure, begins, begins_append, tot_append, tot_map_force]
    cases f <;> simp

/-- `set_index` for consistent sizes. -/
theorem setIndex_eq (L : List (List ℕ × Bool)) :
    setIndex (L.map fun d => (d.1.length, d.2)) (L.flatMap (·.1)) =
      let S := L.flatMap fun d => d.1.map fun a => (a, d.2)
      .ok { xsDataset := begins (L.map fun d => (d.1.length * 6, d.2)) S.length
            xfDataset := begins (L.map fun d => (3 * d.1.sum, d.2))
              (S.length + tot (S.map fun q => (6, q.2)))
            xsBegin := begins (S.map fun q => (6, q.2)) S.length
            xfBegin := begins (S.map fun q => (3 * q.1, q.2))
              (S.length + tot (S.map fun q => (6, q.2)))
            force := S.map (·.2)
            nE := S.length
            nF := tot (S.map fun q => (3 * q.1, q.2))
            nS := tot (S.map fun q => (6, q.2)) } := by
  have hS : (L.flatMap fun d => d.1.map fun a => (a, d.2)).length
      = ((L.map fun d => (d.1.length, d.2)).map (·.1)).sum := by
    rw [List.length_flatMap, List.map_map]
    congr 1
    apply List.map_congr_left
    intro d _
    simp
  have h6 : (L.map fun d => (d.1.length, d.2)).flatMap (fun d => List.replicate d.1 (6, d.2))
      = (L.flatMap fun d => d.1.map fun a => (a, d.2)).map fun q => (6, q.2) := by
    rw [List.flatMap_map, List.map_flatMap]
    apply List.flatMap_congr
    intro d _
    rw [List.map_map]
    simp [Function.comp_def]
  have h3 : (L.flatMap fun d => d.1.map fun a => (a, d.2)).map (fun q => (3 * q.1, q.2))
      = L.flatMap fun d => d.1.map fun a => (3 * a, d.2) := by
    rw [List.map_flatMap]
    apply List.flatMap_congr
    intro d _
    rw [List.map_map]
    rfl
  have hf : (L.map fun d => (d.1.length, d.2)).flatMap (fun d => List.replicate d.1 d.2)
      = (L.flatMap fun d => d.1.map fun a => (a, d.2)).map (·.2) := by
    rw [List.flatMap_map, List.map_flatMap]
    apply List.flatMap_congr
    intro d _
    rw [List.map_map]
    simp [Function.comp_def]
  unfold setIndex
  simp only [stressLoop_eq, forceLoop_eq, bind, Except.bind, pure, Except.pure, h6, hf, h3, List.map_map]
  rw [List.map_map] at hS
  simp only [hS]
  rfl

/-! ## The filled matrix -/

theorem writeRows_eq {α : Type} (x : List α) (b : ℕ) (rows : List α) :
    writeRows x b rows = applyWrites x ((rows.zipIdx b).map fun q => (q.2, q.1)) := by
  unfold writeRows applyWrites
  rw [List.foldl_map]
  have : rows.zipIdx b = rows.zipIdx.map fun q => (q.1, b + q.2) := by
    rw [List.zipIdx_eq_map_add]
  rw [this, List.foldl_map]

theorem applyWrites_append {α : Type} (x : List α) (a b : List (ℕ × α)) :
    applyWrites (applyWrites x a) b = applyWrites x (a ++ b) := by
  simp [applyWrites]

/-- The writes of iteration `i`. -/
def writesOf {α : Type} (ix : Index) (feat : ℕ → StFeatures α) (i : ℕ) : List (ℕ × α) :=
  (i, (feat i).xe) :: if ix.force[i]? = some true then
    (((feat i).xf.zipIdx (ix.xfBegin.getD i (-1)).toNat).map fun q => (q.2, q.1)) ++
      (((feat i).xs.zipIdx (ix.xsBegin.getD i (-1)).toNat).map fun q => (q.2, q.1)) else []

theorem storeStructure_eq {α : Type} (ix : Index) (feat : ℕ → StFeatures α) (x : List α) (i : ℕ) :
    storeStructure ix feat x i = applyWrites x (writesOf ix feat i) := by
  unfold storeStructure writesOf
  simp only [writeRows_eq]
  split
  · simp [applyWrites]
  · simp [applyWrites]

theorem fillX_eq {α : Type} (ix : Index) (feat : ℕ → StFeatures α) (order : List ℕ) (x : List α) :
    fillX ix feat x order = applyWrites x (order.flatMap (writesOf ix feat)) := by
  induction order generalizing x with
  | nil => rfl
  | cons i order ih =>
    have := ih (storeStructure ix feat x i)
    simp only [fillX, List.foldl_cons] at this ⊢
    rw [this, storeStructure_eq, applyWrites_append]
    rfl

/-- Features in the order energies, stresses, forces for structures `(features, present)`. -/
def featureRows {α : Type} (S : List (StFeatures α × Bool)) : List α :=
  S.map (·.1.xe) ++ S.flatMap (fun q => if q.2 then q.1.xs else []) ++
    S.flatMap (fun q => if q.2 then q.1.xf else [])

theorem range_flatMap_getElem {α β : Type} (S : List α) (g : α → List β) (h : ℕ → List β)
    (hh : ∀ (i : ℕ) (a : α), S[i]? = some a → h i = g a) :
    (List.range S.length).flatMap h = S.flatMap g := by
  induction S generalizing h with
  | nil => rfl
  | cons a S ih =>
    rw [List.length_cons, List.range_succ_eq_map, List.flatMap_cons, List.flatMap_cons,
      List.flatMap_map, hh 0 a rfl, ih (fun i => h (i + 1)) fun i b hb => hh (i + 1) b (by simpa using hb)]

theorem offs_eq_tot (A : List (ℕ × Bool)) (i : ℕ) (hi : i ≤ A.length) :
    offs (fun j => match A[j]? with | some q => if q.2 then q.1 else 0 | none => 0) i
      = tot (A.take i) := by
  induction i with
  | zero => simp [offs, tot]
  | succ i ih =>
    rw [offs_succ, ih (by omega), List.take_succ_eq_append_getElem (by omega), tot_append,
      List.getElem?_eq_getElem (by omega)]
    simp [tot]

/-- The assignments of all iterations: each row once, with the feature row that belongs there. -/
theorem writes_perm {α : Type} (S : List (StFeatures α × Bool)) (ix : Index)
    (feat : ℕ → StFeatures α)
    (hfeat : ∀ (i : ℕ) (q : StFeatures α × Bool), S[i]? = some q → feat i = q.1)
    (hs : ∀ q ∈ S, q.1.xs.length = 6)
    (hforce : ix.force = S.map (·.2))
    (hxs : ix.xsBegin = begins (S.map fun q => (6, q.2)) S.length)
    (hxf : ix.xfBegin = begins (S.map fun q => (q.1.xf.length, q.2))
      (S.length + tot (S.map fun q => (6, q.2)))) :
    ((List.range S.length).flatMap (writesOf ix feat)).Perm
      ((featureRows S).zipIdx.map fun q => (q.2, q.1)) := by
  -- the three groups of writes
  let e : ℕ → List (ℕ × α) := fun i => [(i, (feat i).xe)]
  let vS : ℕ → List α := fun i => match S[i]? with
    | some q => if q.2 then q.1.xs else []
    | none => []
  let vF : ℕ → List α := fun i => match S[i]? with
    | some q => if q.2 then q.1.xf else []
    | none => []
  let A6 := S.map fun q => ((6 : ℕ), q.2)
  let AF := S.map fun q => (q.1.xf.length, q.2)
  let zS : ℕ → ℕ := fun j => match A6[j]? with | some q => if q.2 then q.1 else 0 | none => 0
  let zF : ℕ → ℕ := fun j => match AF[j]? with | some q => if q.2 then q.1 else 0 | none => 0
  have hw : ∀ i ∈ List.range S.length, writesOf ix feat i = e i ++
      ((((vF i).zipIdx (S.length + tot A6 + offs zF i)).map fun q => (q.2, q.1)) ++
      (((vS i).zipIdx (S.length + offs zS i)).map fun q => (q.2, q.1))) := by
    intro i hi
    rw [List.mem_range] at hi
    have hq : S[i]? = some S[i] := List.getElem?_eq_getElem hi
    have o6 : offs zS i = tot (A6.take i) := offs_eq_tot A6 i (by simp [A6]; omega)
    have oF : offs zF i = tot (AF.take i) := offs_eq_tot AF i (by simp [AF]; omega)
    have b6 := begins_getD A6 S.length i (6, S[i].2) (by simp [A6, hq])
    have bF := begins_getD AF (S.length + tot A6) i (S[i].1.xf.length, S[i].2) (by simp [AF, hq])
    unfold writesOf
    rw [hforce, List.getElem?_map, hq, hxs, hxf, b6, bF, hfeat i _ hq, o6, oF]
    simp only [Option.map_some, e, vS, vF, hq, hfeat i _ hq]
    cases hS : S[i].2 <;>
      simp only [Int.toNat_natCast, if_true, Bool.false_eq_true, if_false, Option.some.injEq,
        List.zipIdx_nil, List.map_nil, List.append_nil, List.cons_append, List.nil_append]
  have hc : (List.range S.length).flatMap (writesOf ix feat) =
      (List.range S.length).flatMap (fun i => e i ++
      ((((vF i).zipIdx (S.length + tot A6 + offs zF i)).map fun q => (q.2, q.1)) ++
      (((vS i).zipIdx (S.length + offs zS i)).map fun q => (q.2, q.1)))) :=
    List.flatMap_congr hw
  rw [hc]
  refine (List.flatMap_append_perm _ _ _).symm.trans ?_
  have lS : ∀ i < S.length, (vS i).length = zS i := by
    intro i hi
    have hq : S[i]? = some S[i] := List.getElem?_eq_getElem hi
    simp only [vS, zS, A6, List.getElem?_map, hq, Option.map_some]
    cases S[i].2 <;> simp [hs _ (List.getElem_mem hi)]
  have lF : ∀ i < S.length, (vF i).length = zF i := by
    intro i hi
    have hq : S[i]? = some S[i] := List.getElem?_eq_getElem hi
    simp only [vF, zF, AF, List.getElem?_map, hq, Option.map_some]
    cases S[i].2 <;> simp
  have fE : (List.range S.length).flatMap e
      = (S.map (·.1.xe)).zipIdx.map fun q => (q.2, q.1) := by
    have h1 := blocks_zipIdx (fun _ => 1) (fun i => [(feat i).xe]) 0 S.length (by simp)
    have h2 : (List.range S.length).flatMap (fun i => [(feat i).xe]) = S.map (·.1.xe) := by
      rw [range_flatMap_getElem S (fun q => [q.1.xe]) _ fun i q hq => by rw [hfeat i q hq]]
      rw [← List.map_eq_flatMap]
    rw [h2] at h1
    rw [← h1, List.map_flatMap]
    apply List.flatMap_congr
    intro i _
    have : offs (fun _ => 1) i = i := by simp [offs]
    simp [e, this]
  have fS : (List.range S.length).flatMap (fun i =>
      ((vS i).zipIdx (S.length + offs zS i)).map fun q => (q.2, q.1))
      = ((S.flatMap fun q => if q.2 then q.1.xs else []).zipIdx S.length).map fun q => (q.2, q.1) := by
    rw [← List.map_flatMap, blocks_zipIdx zS vS S.length S.length lS,
      range_flatMap_getElem S (fun q => if q.2 then q.1.xs else []) vS fun i q hq => by simp [vS, hq]]
  have fF : (List.range S.length).flatMap (fun i =>
      ((vF i).zipIdx (S.length + tot A6 + offs zF i)).map fun q => (q.2, q.1))
      = ((S.flatMap fun q => if q.2 then q.1.xf else []).zipIdx (S.length + tot A6)).map
        fun q => (q.2, q.1) := by
    rw [← List.map_flatMap, blocks_zipIdx zF vF (S.length + tot A6) S.length lF,
      range_flatMap_getElem S (fun q => if q.2 then q.1.xf else []) vF fun i q hq => by simp [vF, hq]]
  have hlen : (S.flatMap fun q => if q.2 then q.1.xs else []).length = tot A6 := by
    rw [← range_flatMap_getElem S (fun q => if q.2 then q.1.xs else []) vS fun i q hq => by simp [vS, hq],
      blocks_length zS vS S.length lS]
    have := offs_eq_tot A6 S.length (by simp [A6])
    rw [show A6.take S.length = A6 by rw [List.take_of_length_le]; simp [A6]] at this
    exact this
  refine (List.Perm.append_left _ (List.flatMap_append_perm _ _ _).symm).trans ?_
  rw [fE, fS, fF]
  unfold featureRows
  rw [List.zipIdx_append, List.zipIdx_append, List.map_append, List.map_append]
  simp only [List.length_append, List.length_map, hlen, Nat.zero_add, List.append_assoc]
  exact List.Perm.append_left _ List.perm_append_comm

/-- Whatever the execution order of the parallel loop and the initial content, the matrix contains
the feature rows of the structures, kind by kind. -/
theorem fillX_perm {α : Type} (S : List (StFeatures α × Bool)) (ix : Index)
    (feat : ℕ → StFeatures α) (x0 : List α) (order : List ℕ)
    (hfeat : ∀ (i : ℕ) (q : StFeatures α × Bool), S[i]? = some q → feat i = q.1)
    (hs : ∀ q ∈ S, q.1.xs.length = 6)
    (hforce : ix.force = S.map (·.2))
    (hxs : ix.xsBegin = begins (S.map fun q => (6, q.2)) S.length)
    (hxf : ix.xfBegin = begins (S.map fun q => (q.1.xf.length, q.2))
      (S.length + tot (S.map fun q => (6, q.2))))
    (hx0 : x0.length = (featureRows S).length) (horder : order.Perm (List.range S.length)) :
    fillX ix feat x0 order = featureRows S := by
  rw [fillX_eq]
  apply applyWrites_perm _ _ _ hx0
  exact (horder.flatMap_right _).trans (writes_perm S ix feat hfeat hs hforce hxs hxf)

end Verif.Rows
