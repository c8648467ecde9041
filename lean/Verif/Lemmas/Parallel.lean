import Verif.Model.Parallel
import Mathlib.Data.List.Nodup
import Mathlib.Data.List.Pairwise

/-! # Schedules of loops whose iterations own disjoint cells -/

namespace Verif.Parallel
open Verif.Spec

variable {L V : Type} [DecidableEq L]

/-- The memory after a program has been executed without interference. -/
def alone : (L → V) → Prog L V → L → V
  | m, .done => m
  | m, .write l v p => alone (store m l v) p
  | m, .read l k => alone m (k (m l))

/-- Writes only cells `own`, reads only cells `own` or `ro`. -/
def Local (own ro : L → Prop) : Prog L V → Prop
  | .done => True
  | .write l _ p => own l ∧ Local own ro p
  | .read l k => (own l ∨ ro l) ∧ ∀ v, Local own ro (k v)

theorem Local.mono {own own' ro : L → Prop} (h : ∀ l, own l → own' l) (p : Prog L V) :
    Local own ro p → Local own' ro p := by
  induction p with
  | done => intro _; trivial
  | write l v p ih => intro hp; exact ⟨h l hp.1, ih hp.2⟩
  | read l k ih => intro hp; exact ⟨hp.1.imp_left (h l), fun v => ih v (hp.2 v)⟩

theorem Local.seq {own ro : L → Prop} (p q : Prog L V) (hp : Local own ro p) (hq : Local own ro q) :
    Local own ro (p.seq q) := by
  induction p with
  | done => exact hq
  | write l v p ih => exact ⟨hp.1, ih hp.2⟩
  | read l k ih => exact ⟨hp.1, fun v => ih v (hp.2 v)⟩

theorem alone_seq (p q : Prog L V) : ∀ m : L → V, alone m (p.seq q) = alone (alone m p) q := by
  induction p with
  | done => intro m; rfl
  | write l v p ih => intro m; exact ih _
  | read l k ih => intro m; exact ih _ _

theorem alone_frame {own ro : L → Prop} (p : Prog L V) : ∀ (m : L → V), Local own ro p →
    ∀ l, ¬ own l → alone m p l = m l := by
  induction p with
  | done => intro m _ l _; rfl
  | write l v p ih =>
      intro m hp x hx
      refine (ih _ hp.2 x hx).trans ?_
      have : x ≠ l := fun h => hx (h ▸ hp.1)
      simp [store, this]
  | read l k ih => intro m hp x hx; exact ih _ _ (hp.2 _) x hx

theorem alone_congr {own ro : L → Prop} (p : Prog L V) : ∀ (m m' : L → V), Local own ro p →
    (∀ l, own l ∨ ro l → m l = m' l) → ∀ l, own l ∨ ro l → alone m p l = alone m' p l := by
  induction p with
  | done => intro m m' _ h l hl; exact h l hl
  | write l v p ih =>
      intro m m' hp h x hx
      refine ih _ _ hp.2 (fun y hy => ?_) x hx
      simp only [store]
      split
      · rfl
      · exact h y hy
  | read l k ih =>
      intro m m' hp h x hx
      simp only [alone]
      rw [← h l hp.1]
      exact ih _ _ _ (hp.2 _) h x hx

/-- Conditions on a loop with `n` iterations. -/
structure Disjoint (n : ℕ) (body : ℕ → Prog L V) (own : ℕ → L → Prop) (ro : L → Prop) : Prop where
  loc : ∀ i < n, Local (own i) ro (body i)
  dis : ∀ i < n, ∀ j < n, i ≠ j → ∀ l, own i l → ¬ own j l
  ro : ∀ i < n, ∀ l, ro l → ¬ own i l

/-- Cells owned by the iterations of a list. -/
def ownList (own : ℕ → L → Prop) (its : List ℕ) (l : L) : Prop := ∃ i ∈ its, own i l

variable {n : ℕ} {body : ℕ → Prog L V} {own : ℕ → L → Prop} {ro : L → Prop}

theorem local_iterations (h : Disjoint n body own ro) (its : List ℕ) (hi : ∀ i ∈ its, i < n) :
    Local (ownList own its) ro (iterations body its) := by
  induction its with
  | nil => trivial
  | cons i its ih =>
      refine Local.seq _ _ ?_ ?_
      · exact Local.mono (fun l hl => ⟨i, by simp, hl⟩) _ (h.loc i (hi i (by simp)))
      · refine Local.mono (fun l hl => ?_) _ (ih fun j hj => hi j (by simp [hj]))
        obtain ⟨j, hj, hl⟩ := hl
        exact ⟨j, by simp [hj], hl⟩

theorem alone_iterations (h : Disjoint n body own ro) (its : List ℕ) : ∀ (m : L → V),
    (∀ i ∈ its, i < n) → its.Nodup → ∀ i ∈ its, ∀ l, own i l →
    alone m (iterations body its) l = alone m (body i) l := by
  induction its with
  | nil => intro m _ _ i hi; simp at hi
  | cons a its ih =>
      intro m hi hn i him l hl
      have han : a < n := hi a (by simp)
      have hrest : ∀ i ∈ its, i < n := fun j hj => hi j (by simp [hj])
      show alone m ((body a).seq (iterations body its)) l = _
      rw [alone_seq]
      rw [List.nodup_cons] at hn
      rcases List.mem_cons.1 him with rfl | him
      · refine alone_frame _ _ (local_iterations h its hrest) l ?_
        rintro ⟨j, hj, hjl⟩
        exact h.dis i han j (hrest j hj) (fun e => hn.1 (e ▸ hj)) l hl hjl
      · rw [ih _ hrest hn.2 i him l hl]
        refine alone_congr _ _ _ (h.loc i (hrest i him)) ?_ l (.inl hl)
        intro x hx
        refine alone_frame _ _ (h.loc a han) x ?_
        rcases hx with hx | hx
        · exact h.dis i (hrest i him) a han (fun e => hn.1 (e ▸ him)) x hx
        · exact h.ro a han x hx

/-- Invariant of the executions. -/
structure Inv (O : ℕ → L → Prop) (ro : L → Prop) (m E : L → V) (c : Conf L V) : Prop where
  loc : ∀ t, Local (O t) ro (c.todo t)
  res : ∀ t l, O t l → alone c.mem (c.todo t) l = E l
  rest : ∀ l, (∀ t, ¬ O t l) → c.mem l = m l

theorem Inv.step {O : ℕ → L → Prop} {ro : L → Prop} {m E : L → V} {c : Conf L V}
    (hdis : ∀ t t', t ≠ t' → ∀ l, O t l → ¬ O t' l) (hro : ∀ t l, ro l → ¬ O t l)
    (h : Inv O ro m E c) (t : ℕ) : Inv O ro m E (c.step t) := by
  unfold Conf.step
  have hl := h.loc t
  have hr := h.res t
  cases hp : c.todo t with
  | done => exact h
  | write l v p =>
      rw [hp] at hl hr
      refine ⟨fun s => ?_, fun s x hx => ?_, fun x hx => ?_⟩
      · simp only
        split
        · next e => subst e; exact hl.2
        · exact h.loc s
      · simp only
        split
        · next e => subst e; exact hr x hx
        · next e =>
          rw [← h.res s x hx]
          refine alone_congr _ _ _ (h.loc s) ?_ x (.inl hx)
          intro y hy
          have : y ≠ l := by
            rintro rfl
            rcases hy with hy | hy
            · exact hdis s t e y hy hl.1
            · exact hro t y hy hl.1
          simp [store, this]
      · have : x ≠ l := fun e => hx t (e ▸ hl.1)
        simp only [store, if_neg this]
        exact h.rest x hx
  | read l k =>
      rw [hp] at hl hr
      refine ⟨fun s => ?_, fun s x hx => ?_, h.rest⟩
      · simp only
        split
        · next e => subst e; exact hl.2 _
        · exact h.loc s
      · simp only
        split
        · next e => subst e; exact hr x hx
        · exact h.res s x hx

theorem Inv.run {O : ℕ → L → Prop} {ro : L → Prop} {m E : L → V}
    (hdis : ∀ t t', t ≠ t' → ∀ l, O t l → ¬ O t' l) (hro : ∀ t l, ro l → ¬ O t l)
    (sched : List ℕ) : ∀ c : Conf L V, Inv O ro m E c → Inv O ro m E (c.run sched) := by
  induction sched with
  | nil => intro c h; exact h
  | cons t s ih => intro c h; exact ih _ (h.step hdis hro t)

theorem mem_flatten_getD {threads : List (List ℕ)} {t i : ℕ} (h : i ∈ threads.getD t []) :
    i ∈ threads.flatten := by
  rw [List.getD_eq_getElem?_getD] at h
  cases ht : threads[t]? with
  | none => rw [ht] at h; simp at h
  | some its =>
      rw [ht] at h
      exact List.mem_flatten.2 ⟨its, List.mem_of_getElem? ht, h⟩

theorem threads_disjoint {threads : List (List ℕ)} (hn : threads.flatten.Nodup) {t t' i : ℕ}
    (h : i ∈ threads.getD t []) (h' : i ∈ threads.getD t' []) : t = t' := by
  by_contra hne
  have hp := (List.nodup_flatten.1 hn).2
  rw [List.getD_eq_getElem?_getD] at h h'
  cases ht : threads[t]? with
  | none => rw [ht] at h; simp at h
  | some a =>
  cases ht' : threads[t']? with
  | none => rw [ht'] at h'; simp at h'
  | some b =>
  rw [ht] at h
  rw [ht'] at h'
  obtain ⟨h1, rfl⟩ := List.getElem?_eq_some_iff.1 ht
  obtain ⟨h2, rfl⟩ := List.getElem?_eq_some_iff.1 ht'
  rcases Nat.lt_or_gt_of_ne hne with hlt | hlt
  · exact List.pairwise_iff_getElem.1 hp t t' h1 h2 hlt h h'
  · exact List.pairwise_iff_getElem.1 hp t' t h2 h1 hlt h' h

theorem threads_nodup {threads : List (List ℕ)} (hn : threads.flatten.Nodup) (t : ℕ) :
    (threads.getD t []).Nodup := by
  rw [List.getD_eq_getElem?_getD]
  cases ht : threads[t]? with
  | none => simp
  | some a => exact (List.nodup_flatten.1 hn).1 a (List.mem_of_getElem? ht)

section
variable {threads : List (List ℕ)} (hp : threads.flatten.Perm (List.range n))
include hp

theorem thread_lt {t i : ℕ} (h : i ∈ threads.getD t []) : i < n :=
  List.mem_range.1 (hp.mem_iff.1 (mem_flatten_getD h))

theorem flatten_nodup : threads.flatten.Nodup := hp.nodup_iff.2 List.nodup_range

theorem own_disjoint (h : Disjoint n body own ro) (t t' : ℕ) (hne : t ≠ t') (l : L)
    (hl : ownList own (threads.getD t []) l) : ¬ ownList own (threads.getD t' []) l := by
  obtain ⟨i, hi, hil⟩ := hl
  rintro ⟨j, hj, hjl⟩
  refine h.dis i (thread_lt hp hi) j (thread_lt hp hj) ?_ l hil hjl
  rintro rfl
  exact hne (threads_disjoint (flatten_nodup hp) hi hj)

theorem own_ro (h : Disjoint n body own ro) (t : ℕ) (l : L) (hl : ro l) :
    ¬ ownList own (threads.getD t []) l := by
  rintro ⟨j, hj, hjl⟩
  exact h.ro j (thread_lt hp hj) l hl hjl

theorem exists_thread {i : ℕ} (hi : i < n) : ∃ t, i ∈ threads.getD t [] := by
  have := hp.mem_iff.2 (List.mem_range.2 hi)
  obtain ⟨its, h1, h2⟩ := List.mem_flatten.1 this
  obtain ⟨t, ht⟩ := List.mem_iff_getElem?.1 h1
  exact ⟨t, by simpa [List.getD_eq_getElem?_getD, ht] using h2⟩

theorem inv_start (h : Disjoint n body own ro) (m E : L → V)
    (hE : ∀ i < n, ∀ l, own i l → E l = alone m (body i) l) :
    Inv (fun t => ownList own (threads.getD t [])) ro m E (loopStart body m threads) := by
  refine ⟨fun t => local_iterations h _ fun i hi => thread_lt hp hi, fun t l hl => ?_, fun _ _ => rfl⟩
  obtain ⟨i, hi, hil⟩ := hl
  rw [hE i (thread_lt hp hi) l hil]
  exact alone_iterations h _ m (fun i hi => thread_lt hp hi) (threads_nodup (flatten_nodup hp) t) i hi l hil

theorem inv_run (h : Disjoint n body own ro) (m E : L → V)
    (hE : ∀ i < n, ∀ l, own i l → E l = alone m (body i) l) (sched : List ℕ) :
    Inv (fun t => ownList own (threads.getD t [])) ro m E ((loopStart body m threads).run sched) :=
  Inv.run (own_disjoint hp h) (own_ro hp h) sched _ (inv_start hp h m E hE)

end

/-- A single thread can finish. -/
theorem run_alone (p : Prog L V) : ∀ (c : Conf L V) (t : ℕ), c.todo t = p →
    ∃ k, (c.run (List.replicate k t)).todo t = .done ∧
      (c.run (List.replicate k t)).mem = alone c.mem p ∧
      ∀ s, s ≠ t → (c.run (List.replicate k t)).todo s = c.todo s := by
  induction p with
  | done => intro c t h; exact ⟨0, h, rfl, fun _ _ => rfl⟩
  | write l v p ih =>
      intro c t h
      have hs : c.step t = ⟨store c.mem l v, fun s => if s = t then p else c.todo s⟩ := by
        simp [Conf.step, h]
      obtain ⟨k, h1, h2, h3⟩ := ih (c.step t) t (by simp [hs])
      refine ⟨k + 1, h1, ?_, fun s hs' => ?_⟩
      · refine h2.trans ?_
        rw [hs]
        rfl
      · refine (h3 s hs').trans ?_
        simp [hs, hs']
  | read l k' ih =>
      intro c t h
      have hs : c.step t = ⟨c.mem, fun s => if s = t then k' (c.mem l) else c.todo s⟩ := by
        simp [Conf.step, h]
      obtain ⟨k, h1, h2, h3⟩ := ih (c.mem l) (c.step t) t (by simp [hs])
      refine ⟨k + 1, h1, ?_, fun s hs' => ?_⟩
      · refine h2.trans ?_
        rw [hs]
        rfl
      · refine (h3 s hs').trans ?_
        simp [hs, hs']

/-- Sequential execution is one of the schedules. -/
theorem sequential (n : ℕ) (body : ℕ → Prog L V) (m : L → V) :
    LoopResult n body m (alone m (iterations body (List.range n))) := by
  obtain ⟨k, h1, h2, h3⟩ := run_alone (iterations body (List.range n))
    (loopStart body m [List.range n]) 0 rfl
  refine ⟨[List.range n], List.replicate k 0, by simp, fun t => ?_, h2⟩
  rcases Nat.eq_zero_or_pos t with rfl | ht
  · exact h1
  · rw [h3 t (by omega)]
    have : [List.range n].getD t [] = [] := by
      rw [List.getD_eq_getElem?_getD, List.getElem?_eq_none (by simp only [List.length_singleton]; omega)]
      rfl
    simp only [loopStart, this]
    rfl

/-- The result of a loop with disjoint iterations. -/
theorem result_iff (h : Disjoint n body own ro) (m E : L → V)
    (hE : ∀ i < n, ∀ l, own i l → E l = alone m (body i) l)
    (hE' : ∀ l, (∀ i < n, ¬ own i l) → E l = m l) (m' : L → V) :
    LoopResult n body m m' ↔ m' = E := by
  have key : ∀ m', LoopResult n body m m' → m' = E := by
    rintro m' ⟨threads, sched, hp, hd, rfl⟩
    have hi := inv_run hp h m E hE sched
    funext l
    by_cases hl : ∃ i, i < n ∧ own i l
    · obtain ⟨i, hin, hil⟩ := hl
      obtain ⟨t, ht⟩ := exists_thread hp hin
      have := hi.res t l ⟨i, ht, hil⟩
      rw [hd t] at this
      exact this
    · push Not at hl
      rw [hE' l hl]
      refine hi.rest l ?_
      rintro t ⟨i, hi, hil⟩
      exact hl i (thread_lt hp hi) hil
  refine ⟨key m', ?_⟩
  rintro rfl
  have := sequential n body m
  rwa [key _ this] at this

/-- Loops with disjoint iterations have no data races. -/
theorem raceFree (h : Disjoint n body own ro) (m : L → V) : RaceFree n body m := by
  classical
  intro threads sched hp t t' l hne hw hrw
  have hi := Inv.run (own_disjoint hp h) (own_ro hp h) sched _
    (inv_start hp h m (fun l => if hl : ∃ i, i < n ∧ own i l then alone m (body hl.choose) l else m l)
      (by
        intro i hin l hil
        have hl : ∃ i, i < n ∧ own i l := ⟨i, hin, hil⟩
        rw [dif_pos hl]
        have he : hl.choose = i := by
          by_contra hne
          exact h.dis _ hl.choose_spec.1 i hin hne l hl.choose_spec.2 hil
        rw [he]))
  obtain ⟨v, q, hw⟩ := hw
  have h1 := hi.loc t
  rw [hw] at h1
  have h2 := hi.loc t'
  rcases hrw with ⟨v', q', e⟩ | ⟨k, e⟩
  · rw [e] at h2
    exact own_disjoint hp h t t' hne l h1.1 h2.1
  · rw [e] at h2
    rcases h2.1 with h2 | h2
    · exact own_disjoint hp h t t' hne l h1.1 h2
    · exact own_ro hp h t l h2 h1.1

/-! ## Loops whose writes agree -/

/-- All accesses are writes of the value `E l` to the cell `l`. -/
def Agree (E : L → V) : Prog L V → Prop
  | .done => True
  | .write l v p => v = E l ∧ Agree E p
  | .read _ _ => False

/-- A write to `l` is among the accesses. -/
def Pending (l : L) : Prog L V → Prop
  | .done => False
  | .write x _ p => x = l ∨ Pending l p
  | .read _ _ => False

theorem Agree.seq {E : L → V} (p q : Prog L V) (hp : Agree E p) (hq : Agree E q) :
    Agree E (p.seq q) := by
  induction p with
  | done => exact hq
  | write l v p ih => exact ⟨hp.1, ih hp.2⟩
  | read l k ih => exact hp.elim

theorem Pending.left {l : L} {E : L → V} (p q : Prog L V) (hp : Pending l p) :
    Pending l (p.seq q) := by
  induction p with
  | done => exact hp.elim
  | write x v p ih => exact hp.imp_right ih
  | read x k ih => exact hp.elim

theorem Pending.right {l : L} {E : L → V} (p q : Prog L V) (hp : Agree E p) (hq : Pending l q) :
    Pending l (p.seq q) := by
  induction p with
  | done => exact hq
  | write x v p ih => exact .inr (ih hp.2)
  | read x k ih => exact hp.elim

theorem agree_iterations {E : L → V} (body : ℕ → Prog L V) (its : List ℕ)
    (h : ∀ i ∈ its, Agree E (body i)) : Agree E (iterations body its) := by
  induction its with
  | nil => trivial
  | cons i its ih =>
      exact Agree.seq _ _ (h i (by simp)) (ih fun j hj => h j (by simp [hj]))

theorem pending_iterations {E : L → V} (body : ℕ → Prog L V) (its : List ℕ)
    (h : ∀ i ∈ its, Agree E (body i)) (i : ℕ) (hi : i ∈ its) (l : L) (hl : Pending l (body i)) :
    Pending l (iterations body its) := by
  induction its with
  | nil => simp at hi
  | cons a its ih =>
      rcases List.mem_cons.1 hi with rfl | hi
      · exact Pending.left (E := E) _ _ hl
      · exact Pending.right _ _ (h a (by simp)) (ih (fun j hj => h j (by simp [hj])) hi)

theorem agree_step {E : L → V} (c : Conf L V) (t : ℕ) (h1 : ∀ t, Agree E (c.todo t))
    (h2 : ∀ l, (∃ t, Pending l (c.todo t)) ∨ c.mem l = E l) :
    (∀ s, Agree E ((c.step t).todo s)) ∧
      ∀ l, (∃ s, Pending l ((c.step t).todo s)) ∨ (c.step t).mem l = E l := by
  unfold Conf.step
  have ht := h1 t
  cases hp : c.todo t with
  | done => exact ⟨h1, h2⟩
  | read l k => rw [hp] at ht; exact ht.elim
  | write l v p =>
      rw [hp] at ht
      refine ⟨fun s => ?_, fun x => ?_⟩
      · simp only
        split
        · exact ht.2
        · exact h1 s
      · by_cases hx : x = l
        · right
          simp only [store, hx, if_true]
          exact ht.1
        · rcases h2 x with ⟨s, hs⟩ | h
          · left
            by_cases hst : s = t
            · subst hst
              rw [hp] at hs
              refine ⟨s, ?_⟩
              simp only [if_true]
              exact hs.resolve_left fun e => hx e.symm
            · exact ⟨s, by simpa only [if_neg hst] using hs⟩
          · right
            simp only [store, if_neg hx, h]

theorem agree_run {E : L → V} (sched : List ℕ) : ∀ (c : Conf L V), (∀ t, Agree E (c.todo t)) →
    (∀ l, (∃ t, Pending l (c.todo t)) ∨ c.mem l = E l) →
    ∀ l, (∃ t, Pending l ((c.run sched).todo t)) ∨ (c.run sched).mem l = E l := by
  induction sched with
  | nil => intro c _ h; exact h
  | cons t s ih =>
      intro c h1 h2
      have h := agree_step c t h1 h2
      exact ih _ h.1 h.2

/-- The result of a loop whose writes agree. -/
theorem result_agree (n : ℕ) (body : ℕ → Prog L V) (m E : L → V) (h : ∀ i < n, Agree E (body i))
    (hw : ∀ l, (∃ i < n, Pending l (body i)) ∨ m l = E l) (m' : L → V) :
    LoopResult n body m m' ↔ m' = E := by
  have key : ∀ m', LoopResult n body m m' → m' = E := by
    rintro m' ⟨threads, sched, hp, hd, rfl⟩
    funext l
    have := agree_run (E := E) sched (loopStart body m threads)
      (fun t => agree_iterations body _ fun i hi => h i (thread_lt hp hi))
      (fun l => by
        rcases hw l with ⟨i, hi, hl⟩ | hl
        · obtain ⟨t, ht⟩ := exists_thread hp hi
          exact .inl ⟨t, pending_iterations body _ (fun i hi => h i (thread_lt hp hi)) i ht l hl⟩
        · exact .inr hl) l
    rcases this with ⟨t, ht⟩ | h
    · rw [hd t] at ht
      exact ht.elim
    · exact h
  refine ⟨key m', ?_⟩
  rintro rfl
  have := sequential n body m
  rwa [key _ this] at this

theorem agree_writeAll {E : L → V} (ws : List (L × V)) (h : ∀ w ∈ ws, w.2 = E w.1) :
    Agree E (writeAll ws) := by
  induction ws with
  | nil => trivial
  | cons w ws ih => exact ⟨h w (by simp), ih fun v hv => h v (by simp [hv])⟩

theorem pending_writeAll (ws : List (L × V)) (w : L × V) (h : w ∈ ws) :
    Pending w.1 (writeAll ws) := by
  induction ws with
  | nil => simp at h
  | cons v ws ih =>
      rcases List.mem_cons.1 h with rfl | h
      · exact .inl rfl
      · exact .inr (ih h)

theorem local_writeAll {own ro : L → Prop} (ws : List (L × V)) (h : ∀ w ∈ ws, own w.1) :
    Local own ro (writeAll ws) := by
  induction ws with
  | nil => trivial
  | cons w ws ih => exact ⟨h w (by simp), ih fun v hv => h v (by simp [hv])⟩

/-! ## The loops -/

theorem alone_pushAll {E : Type} (l : L) (es : List E) : ∀ m : L → List E,
    alone m (pushAll l es) l = m l ++ es := by
  induction es with
  | nil => intro m; simp [pushAll, alone]
  | cons e es ih =>
      intro m
      simp only [pushAll, alone]
      rw [ih]
      simp [store]

theorem local_pushAll {E : Type} {ro : L → Prop} (l : L) (es : List E) :
    Local (fun x => x = l) ro (pushAll l es) := by
  induction es with
  | nil => trivial
  | cons e es ih => exact ⟨.inl rfl, fun v => ⟨rfl, ih⟩⟩

theorem alone_pairsFrom {K A : Type} [Field K] [LinearOrder K] [Zero A] (far : ℕ × Neighbor.Vec K → Bool)
    (entry : ℕ × Neighbor.Vec K → (ℕ → A) → (ℕ → A) → (ℕ → A) → (ℕ → A) → K × Neighbor.Vec K) (i : ℕ)
    (es : List (ℕ × Neighbor.Vec K)) : ∀ (m : Cell → Val A K) (jj : ℕ),
    (∀ k < jj, alone m (pairsFrom far entry i es jj) (.pair i k) = m (.pair i k)) ∧
    ∀ k, alone m (pairsFrom far entry i es jj) (.pair i (jj + k)) =
      match es[k]? with
      | some e => if far e then m (.pair i (jj + k)) else
        .entry (entry e (m (.prodE i)).vec (m (.prodE e.1)).vec (m (.prodF i)).vec (m (.prodF e.1)).vec)
      | none => m (.pair i (jj + k)) := by
  induction es with
  | nil => intro m jj; exact ⟨fun _ _ => rfl, fun _ => rfl⟩
  | cons e es ih =>
      intro m jj
      by_cases hf : far e = true
      · simp only [pairsFrom, if_pos hf]
        obtain ⟨h1, h2⟩ := ih m (jj + 1)
        refine ⟨fun k hk => h1 k (by omega), fun k => ?_⟩
        cases k with
        | zero => simpa [hf] using h1 jj (by omega)
        | succ k =>
            have := h2 k
            rw [show jj + 1 + k = jj + (k + 1) by omega] at this
            simpa using this
      · simp only [pairsFrom, if_neg hf, alone]
        set m' := store m (Cell.pair i jj) (Val.entry (entry e (m (.prodE i)).vec (m (.prodE e.1)).vec
          (m (.prodF i)).vec (m (.prodF e.1)).vec)) with hm'
        obtain ⟨h1, h2⟩ := ih m' (jj + 1)
        refine ⟨fun k hk => ?_, fun k => ?_⟩
        · rw [h1 k (by omega)]
          have : Cell.pair i k ≠ Cell.pair i jj := by
            intro h; injection h; omega
          simp [hm', store, this]
        · cases k with
          | zero =>
              refine (h1 jj (by omega)).trans ?_
              simp [hm', store, hf]
          | succ k =>
              have := h2 k
              rw [show jj + 1 + k = jj + (k + 1) by omega] at this
              rw [this]
              have : Cell.pair i (jj + (k + 1)) ≠ Cell.pair i jj := by
                intro h; injection h; omega
              simp [hm', store, this]

/-- The cells of the pairs of atom `i`. -/
def isPair (i : ℕ) (c : Cell) : Prop := ∃ jj, c = .pair i jj

/-- The cells of the vectors of the first loop. -/
def isProd (c : Cell) : Prop := ∃ i, c = .prodE i ∨ c = .prodF i

theorem local_pairsFrom {K A : Type} [Field K] [LinearOrder K] [Zero A]
    (far : ℕ × Neighbor.Vec K → Bool)
    (entry : ℕ × Neighbor.Vec K → (ℕ → A) → (ℕ → A) → (ℕ → A) → (ℕ → A) → K × Neighbor.Vec K) (i : ℕ)
    (es : List (ℕ × Neighbor.Vec K)) : ∀ (jj : ℕ),
    Local (isPair i) isProd (pairsFrom far entry i es jj) := by
  induction es with
  | nil => intro jj; trivial
  | cons e es ih =>
      intro jj
      unfold pairsFrom
      split
      · exact ih _
      · exact ⟨.inr ⟨i, .inl rfl⟩, fun _ => ⟨.inr ⟨e.1, .inl rfl⟩, fun _ => ⟨.inr ⟨i, .inr rfl⟩,
          fun _ => ⟨.inr ⟨e.1, .inr rfl⟩, fun _ => ⟨⟨jj, rfl⟩, ih _⟩⟩⟩⟩⟩

end Verif.Parallel
