import Mathlib.Data.List.Induction
import Verif.Spec.DevApi

/-!
# Histories: an attribute is what the last call gave that gave something
-/

namespace Verif

open Spec

theorem lastOf_foldl {α τ β : Type} (step : τ → α → τ) (st : τ) (g : τ → Option β) (P : τ → α → β → Prop)
    (hP : ∀ s c, (∃ b, P s c b ∧ g (step s c) = some b) ∨ ((∀ b, ¬ P s c b) ∧ g (step s c) = g s)) (cs : List α) :
    (∃ b, g (cs.foldl step st) = some b ∧ LastOf (fun l => l.foldl step st) P cs b) ∨
      (g (cs.foldl step st) = g st ∧ ∀ q y t, cs = q ++ y :: t → ∀ b, ¬ P (q.foldl step st) y b) := by
  induction cs using List.reverseRecOn with
  | nil => right; exact ⟨rfl, by intro q y t h; simp at h⟩
  | append_singleton l c ih =>
    rw [List.foldl_append, List.foldl_cons, List.foldl_nil]
    rcases hP (l.foldl step st) c with ⟨b, hb, hg⟩ | ⟨hn, hg⟩
    · left
      refine ⟨b, hg, l, c, [], by simp, hb, ?_⟩
      intro q y t h; simp at h
    · rcases ih with ⟨b, hb, pre, x, post, rfl, hx, hpost⟩ | ⟨hb, hno⟩
      · left
        refine ⟨b, by rw [hg, hb], pre, x, post ++ [c], by simp, hx, ?_⟩
        intro q y t h b'
        rcases List.eq_nil_or_concat t with rfl | ⟨t', z, rfl⟩
        · have h2 := List.append_inj' h (by simp)
          have : c = y := by simpa using h2.2
          subst this; rw [← h2.1]; exact hn b'
        · have h' : post ++ [c] = (q ++ y :: t') ++ [z] := by simpa using h
          have h2 := List.append_inj' h' (by simp)
          exact hpost q y t' h2.1 b'
      · right
        refine ⟨by rw [hg, hb], ?_⟩
        intro q y t h b'
        rcases List.eq_nil_or_concat t with rfl | ⟨t', z, rfl⟩
        · have h2 := List.append_inj' h (by simp)
          have : c = y := by simpa using h2.2
          subst this; rw [← h2.1]; exact hn b'
        · have h' : l ++ [c] = (q ++ y :: t') ++ [z] := by simpa using h
          have h2 := List.append_inj' h' (by simp)
          exact hno q y t' h2.1 b'

end Verif
