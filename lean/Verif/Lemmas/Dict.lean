import Verif.Model.Dict
import Mathlib.Data.List.Induction
import Mathlib.Tactic.Common

namespace Verif.Dict
variable {κ β : Type} [DecidableEq κ]

theorem get?_set (d : Dict κ β) (k : κ) (v : β) (k' : κ) :
    (d.set k v).get? k' = if k' = k then some v else d.get? k' := by
  unfold set get?
  split
  · rename_i h
    induction d with
    | nil => simp at h
    | cons p d ih =>
      by_cases hp : p.1 = k
      · by_cases hk : k' = k
        · subst hk; simp [hp]
        · have h1 : ¬ k = k' := fun e => hk e.symm
          have h2 : ¬ p.1 = k' := by rw [hp]; exact h1
          simp only [List.map_cons, hp, if_true]
          rw [List.find?_cons_of_neg (by simpa using h1),
            List.find?_cons_of_neg (by simpa using h2)]
          by_cases hd : (d.any fun p => decide (p.1 = k)) = true
          · exact ih hd
          · have : (d.map fun p => if p.1 = k then (k, v) else p) = d := by
              have : ∀ q ∈ d, (fun p : κ × β => if p.1 = k then (k, v) else p) q = id q := by
                intro q hq
                have : ¬ q.1 = k := by
                  intro e; exact hd (List.any_eq_true.2 ⟨q, hq, by simpa using e⟩)
                simp [this]
              rw [List.map_congr_left this, List.map_id]
            rw [this, if_neg hk]
      · have hd : (d.any fun p => decide (p.1 = k)) = true := by
          simpa [hp] using h
        simp only [List.map_cons, hp, if_false]
        by_cases hk : p.1 = k'
        · have hkk : ¬ k' = k := by rw [← hk]; exact hp
          rw [List.find?_cons_of_pos (by simpa using hk),
            List.find?_cons_of_pos (by simpa using hk), if_neg hkk]
        · rw [List.find?_cons_of_neg (by simpa using hk),
            List.find?_cons_of_neg (by simpa using hk)]
          exact ih hd
  · rename_i h
    rw [List.find?_append]
    by_cases hk : k' = k
    · subst hk
      have : d.find? (fun p => decide (p.1 = k')) = none := by
        rw [List.find?_eq_none]
        intro q hq e
        exact h (List.any_eq_true.2 ⟨q, hq, e⟩)
      simp [this]
    · have h1 : ¬ k = k' := fun e => hk e.symm
      simp [h1, hk]

theorem mem_keys_iff (d : Dict κ β) (k : κ) : k ∈ d.keys ↔ (d.get? k).isSome := by
  unfold keys get?
  simp [List.find?_isSome]

theorem get?_eq_none (d : Dict κ β) (k : κ) : d.get? k = none ↔ k ∉ d.keys := by
  rw [mem_keys_iff]; simp

theorem mem_of_get? {d : Dict κ β} {k : κ} {v : β} (h : d.get? k = some v) : (k, v) ∈ d := by
  unfold get? at h
  rw [Option.map_eq_some_iff] at h
  obtain ⟨q, hq, rfl⟩ := h
  have := List.find?_some hq
  have hm := List.mem_of_find?_eq_some hq
  simp only [decide_eq_true_eq] at this
  rw [← this]; exact hm

theorem keys_set (d : Dict κ β) (k : κ) (v : β) :
    (d.set k v).keys = if k ∈ d.keys then d.keys else d.keys ++ [k] := by
  unfold set keys
  by_cases h : k ∈ d.map (·.1)
  · have h' : (d.any fun p => decide (p.1 = k)) = true := by
      rw [List.any_eq_true]
      obtain ⟨q, hq, e⟩ := List.mem_map.1 h
      exact ⟨q, hq, by simpa using e⟩
    rw [if_pos h', if_pos h, List.map_map]
    apply List.map_congr_left
    intro q _
    by_cases e : q.1 = k <;> simp [e]
  · have h' : ¬ (d.any fun p => decide (p.1 = k)) = true := by
      rw [List.any_eq_true]
      rintro ⟨q, hq, e⟩
      exact h (List.mem_map.2 ⟨q, hq, by simpa using e⟩)
    rw [if_neg h', if_neg h]; simp

theorem nodup_keys_set {d : Dict κ β} (h : d.keys.Nodup) (k : κ) (v : β) :
    (d.set k v).keys.Nodup := by
  rw [keys_set]
  split
  · exact h
  · rename_i hk
    rw [List.nodup_append]
    refine ⟨h, by simp, ?_⟩
    intro a ha b hb e
    simp only [List.mem_singleton] at hb
    subst e; subst hb; exact hk ha

theorem setAll_nil (d : Dict κ β) : d.setAll [] = d := rfl

theorem setAll_append (d : Dict κ β) (xs ys : List (κ × β)) :
    d.setAll (xs ++ ys) = (d.setAll xs).setAll ys := by
  unfold setAll; rw [List.foldl_append]

/-- After a loop of assignments a key holds the last value assigned, or its old value. -/
theorem get?_setAll (d : Dict κ β) (items : List (κ × β)) (k : κ) :
    (d.setAll items).get? k =
      ((items.reverse.find? fun p => p.1 = k).map (·.2)).or (d.get? k) := by
  induction items using List.reverseRecOn with
  | nil => simp [setAll]
  | append_singleton xs x ih =>
    rw [setAll_append]
    simp only [setAll, List.foldl_cons, List.foldl_nil] at ih ⊢
    rw [get?_set, List.reverse_append, List.reverse_singleton, List.singleton_append]
    by_cases e : k = x.1
    · rw [if_pos e, List.find?_cons_of_pos (by simpa using e.symm)]; simp
    · rw [if_neg e, List.find?_cons_of_neg (by simpa using fun h => e h.symm), ih]

theorem nodup_keys_setAll {d : Dict κ β} (h : d.keys.Nodup) (items : List (κ × β)) :
    (d.setAll items).keys.Nodup := by
  induction items using List.reverseRecOn with
  | nil => simpa [setAll] using h
  | append_singleton xs x ih =>
    rw [setAll_append]
    simpa [setAll] using nodup_keys_set ih x.1 x.2

theorem mem_keys_setAll (d : Dict κ β) (items : List (κ × β)) (k : κ) :
    k ∈ (d.setAll items).keys ↔ k ∈ d.keys ∨ ∃ v, (k, v) ∈ items := by
  induction items using List.reverseRecOn with
  | nil => simp [setAll]
  | append_singleton xs x ih =>
    rw [setAll_append]
    simp only [setAll, List.foldl_cons, List.foldl_nil] at ih ⊢
    rw [keys_set]
    constructor
    · intro h
      split at h
      · rcases ih.1 h with h | ⟨v, h⟩
        · exact .inl h
        · exact .inr ⟨v, by simp [h]⟩
      · rcases List.mem_append.1 h with h | h
        · rcases ih.1 h with h | ⟨v, h⟩
          · exact .inl h
          · exact .inr ⟨v, by simp [h]⟩
        · simp only [List.mem_singleton] at h
          exact .inr ⟨x.2, by simp [h]⟩
    · intro h
      have key : k ∈ (List.foldl (fun d p => d.set p.1 p.2) d xs).keys ∨ k = x.1 := by
        rcases h with h | ⟨v, h⟩
        · exact .inl (ih.2 (.inl h))
        · rcases List.mem_append.1 h with h | h
          · exact .inl (ih.2 (.inr ⟨v, h⟩))
          · simp only [List.mem_singleton] at h
            exact .inr (by rw [← h])
      split
      · rename_i hx
        rcases key with h | h
        · exact h
        · rw [h]; exact hx
      · rcases key with h | h
        · exact List.mem_append.2 (.inl h)
        · exact List.mem_append.2 (.inr (by simp [h]))

end Verif.Dict
