import Mathlib.Data.List.Range
import Mathlib.Data.List.Flatten

/-!
# Meaning of a parallel loop

`#pragma omp parallel for` distributes the iterations `0, …, n - 1` over any number of threads, in any
way; the threads then perform their accesses to the shared memory in any interleaving.  `L` are the
shared memory cells, `V` their contents.
-/

namespace Verif.Spec

/-- What a thread still has to do: accesses to shared memory in program order.  The continuation of a
read depends on the value that is read; everything else a thread computes is private to it. -/
inductive Prog (L V : Type) where
  | done
  | write (l : L) (v : V) (next : Prog L V)
  | read (l : L) (next : V → Prog L V)

variable {L V : Type}

/-- One program after another. -/
def Prog.seq : Prog L V → Prog L V → Prog L V
  | .done, q => q
  | .write l v p, q => .write l v (p.seq q)
  | .read l k, q => .read l fun v => (k v).seq q

/-- The shared memory and what each thread still has to do. -/
structure Conf (L V : Type) where
  mem : L → V
  todo : ℕ → Prog L V

variable [DecidableEq L]

/-- The memory after `v` is stored in the cell `l`. -/
def store (m : L → V) (l : L) (v : V) : L → V := fun x => if x = l then v else m x

/-- Thread `t` performs its next access; nothing happens if it has finished. -/
def Conf.step (c : Conf L V) (t : ℕ) : Conf L V :=
  match c.todo t with
  | .done => c
  | .write l v p => ⟨store c.mem l v, fun s => if s = t then p else c.todo s⟩
  | .read l k => ⟨c.mem, fun s => if s = t then k (c.mem l) else c.todo s⟩

/-- The threads take steps in the order given by the schedule. -/
def Conf.run (c : Conf L V) (sched : List ℕ) : Conf L V := sched.foldl Conf.step c

/-- A thread executes the iterations assigned to it one after another. -/
def iterations (body : ℕ → Prog L V) (its : List ℕ) : Prog L V :=
  its.foldr (fun i p => (body i).seq p) .done

/-- Entry into the loop: `threads[t]` are the iterations assigned to thread `t`. -/
def loopStart (body : ℕ → Prog L V) (m : L → V) (threads : List (List ℕ)) : Conf L V :=
  ⟨m, fun t => iterations body (threads.getD t [])⟩

/-- `m'` is a possible memory after the loop: some number of threads, some distribution of the
iterations over them, and some schedule, at the end of which all threads have finished. -/
def LoopResult (n : ℕ) (body : ℕ → Prog L V) (m m' : L → V) : Prop :=
  ∃ (threads : List (List ℕ)) (sched : List ℕ), threads.flatten.Perm (List.range n) ∧
    (∀ t, ((loopStart body m threads).run sched).todo t = .done) ∧
    ((loopStart body m threads).run sched).mem = m'

/-- The next access of a thread is a write to `l`. -/
def Prog.WritesNext (p : Prog L V) (l : L) : Prop := ∃ v q, p = .write l v q

/-- The next access of a thread is a read of `l`. -/
def Prog.ReadsNext (p : Prog L V) (l : L) : Prop := ∃ k, p = .read l k

/-- No data race: whatever the threads, the distribution and the schedule, two different threads are
never about to access the same cell, one of them for writing. -/
def RaceFree (n : ℕ) (body : ℕ → Prog L V) (m : L → V) : Prop :=
  ∀ (threads : List (List ℕ)) (sched : List ℕ), threads.flatten.Perm (List.range n) →
    ∀ (t t' : ℕ) (l : L), t ≠ t' →
      (((loopStart body m threads).run sched).todo t).WritesNext l →
      ¬ ((((loopStart body m threads).run sched).todo t').WritesNext l ∨
        (((loopStart body m threads).run sched).todo t').ReadsNext l)

end Verif.Spec
