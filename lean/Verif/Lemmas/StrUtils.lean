import Verif.Model.StrUtils
import Verif.Spec.Blocks
import Verif.Spec.Atoms
import Verif.Lemmas.Py
import Verif.Lemmas.AtomOrder

namespace Verif.StrUtils
open Verif.AtomOrder Verif.Spec
variable {K : Type}

/-- The expansion with types counted from `k`. -/
def expandFrom (k : ℕ) (xs : List ℕ) : List ℕ := (xs.zipIdx k).flatMap fun p => List.replicate p.1 p.2

theorem expand_eq (xs : List ℕ) : expand xs = expandFrom 0 xs := rfl

@[simp] theorem expandFrom_nil (k : ℕ) : expandFrom k [] = [] := rfl

theorem expandFrom_cons (k n : ℕ) (xs : List ℕ) :
    expandFrom k (n :: xs) = List.replicate n k ++ expandFrom (k + 1) xs := by
  simp [expandFrom, List.zipIdx_cons]

theorem expandFrom_append (k : ℕ) (xs ys : List ℕ) :
    expandFrom k (xs ++ ys) = expandFrom k xs ++ expandFrom (k + xs.length) ys := by
  induction xs generalizing k with
  | nil => simp
  | cons n xs ih =>
    rw [List.cons_append, expandFrom_cons, ih, expandFrom_cons, List.append_assoc, List.length_cons]
    congr 3; omega

@[simp] theorem length_expandFrom (k : ℕ) (xs : List ℕ) : (expandFrom k xs).length = xs.sum := by
  induction xs generalizing k with
  | nil => rfl
  | cons n xs ih => rw [expandFrom_cons]; simp [ih]

theorem mem_expandFrom {k t : ℕ} {xs : List ℕ} (h : t ∈ expandFrom k xs) :
    k ≤ t ∧ t < k + xs.length := by
  induction xs generalizing k with
  | nil => simp at h
  | cons n xs ih =>
    rw [expandFrom_cons, List.mem_append] at h
    rcases h with h | h
    · have := (List.mem_replicate.mp h).2; simp; omega
    · have := ih h; simp; omega

/-- Splitting the counts at a type. -/
theorem expand_split (a : List ℕ) (n : ℕ) (b : List ℕ) :
    expand (a ++ n :: b) = expandFrom 0 a ++ (List.replicate n a.length ++ expandFrom (a.length + 1) b) := by
  rw [expand_eq, expandFrom_append, expandFrom_cons]; simp

theorem exists_split_idx (xs : List ℕ) (i : ℕ) (h : i < xs.length) :
    ∃ a n b, xs = a ++ n :: b ∧ a.length = i := by
  refine ⟨xs.take i, xs[i], xs.drop (i + 1), ?_, by simp; omega⟩
  rw [List.getElem_cons_drop, List.take_append_drop]

theorem exists_split_sum (xs : List ℕ) (i : ℕ) (h : i < xs.sum) :
    ∃ a n b, xs = a ++ n :: b ∧ a.sum ≤ i ∧ i < a.sum + n := by
  induction xs generalizing i with
  | nil => simp at h
  | cons n xs ih =>
    by_cases hn : i < n
    · exact ⟨[], n, xs, rfl, by simp, by simpa using hn⟩
    · obtain ⟨a, m, b, rfl, h1, h2⟩ := ih (i - n) (by simp at h; omega)
      exact ⟨n :: a, m, b, rfl, by simp; omega, by simp; omega⟩

theorem blocks_expand (xs : List ℕ) : Blocks xs (expand xs) := by
  refine ⟨by rw [expand_eq]; simp, fun i t h => ?_⟩
  have hi : i < xs.sum := by
    have := (List.getElem?_eq_some_iff.mp h).1
    rwa [expand_eq, length_expandFrom] at this
  obtain ⟨a, n, b, rfl, h1, h2⟩ := exists_split_sum xs i hi
  rw [expand_split, List.getElem?_append_right (by simpa using h1),
    List.getElem?_append_left (by simp; omega)] at h
  have ht : t = a.length := by
    have := List.mem_of_getElem? h
    exact (List.mem_replicate.mp this).2
  subst ht
  refine ⟨by simp, by simpa using h1, ?_⟩
  rw [show a ++ n :: b = (a ++ [n]) ++ b by simp, List.take_left' (by simp)]
  simpa using h2

theorem sum_take_mono (xs : List ℕ) {s t : ℕ} (h : s ≤ t) : (xs.take s).sum ≤ (xs.take t).sum := by
  obtain ⟨d, rfl⟩ : ∃ d, t = s + d := ⟨t - s, by omega⟩
  rw [List.take_add, List.sum_append]; omega

theorem blocks_iff (xs types : List ℕ) : Blocks xs types ↔ types = expand xs := by
  constructor
  · intro h
    have he := blocks_expand xs
    apply List.ext_getElem (by rw [h.1, he.1])
    intro i h1 h2
    obtain ⟨-, a1, a2⟩ := h.2 i _ (List.getElem?_eq_getElem h1)
    obtain ⟨-, b1, b2⟩ := he.2 i _ (List.getElem?_eq_getElem h2)
    rcases lt_trichotomy types[i] (expand xs)[i] with hlt | heq | hgt
    · have := sum_take_mono xs (Nat.succ_le_of_lt hlt)
      simp only [Nat.succ_eq_add_one] at this; omega
    · exact heq
    · have := sum_take_mono xs (Nat.succ_le_of_lt hgt)
      simp only [Nat.succ_eq_add_one] at this; omega
  · rintro rfl; exact blocks_expand xs

theorem zip_deleteRange {α β : Type} (xs : List α) (ys : List β) (h : xs.length = ys.length) (b e : ℕ) :
    (deleteRange xs b e).zip (deleteRange ys b e) = deleteRange (xs.zip ys) b e := by
  unfold deleteRange
  rw [List.zip_append (by simp [h])]
  congr 1
  · simp [List.zip, List.take_zipWith]
  · simp [List.zip, List.drop_zipWith]

theorem zip_eraseIdx {α β : Type} (xs : List α) (ys : List β) (i : ℕ) (h : xs.length = ys.length) :
    (xs.eraseIdx i).zip (ys.eraseIdx i) = (xs.zip ys).eraseIdx i := by
  induction xs generalizing ys i with
  | nil => simp
  | cons x xs ih =>
    cases ys with
    | nil => simp at h
    | cons y ys =>
      cases i with
      | zero => simp
      | succ i => simp [ih ys i (by simpa using h)]

theorem eraseIdx_middle {α : Type} (A : List α) (n : ℕ) (c : α) (B : List α) (i : ℕ)
    (h1 : A.length ≤ i) (h2 : i < A.length + n) :
    (A ++ (List.replicate n c ++ B)).eraseIdx i = A ++ (List.replicate (n - 1) c ++ B) := by
  rw [List.eraseIdx_append_of_length_le h1, List.eraseIdx_append_of_lt_length (by simp; omega)]
  congr 2
  rw [List.eraseIdx_replicate, if_pos (by omega)]

end Verif.StrUtils
