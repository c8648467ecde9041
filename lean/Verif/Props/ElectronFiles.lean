import Verif.Model.ElectronFiles
import Verif.Props.Accuracy
import Verif.Lemmas.Dict

/-!
# C101: names of the files of electronic properties
-/

namespace Verif.ElectronFiles
open Verif.Accuracy (replace replaceGo)

theorem splitSlash_base (cur base : List Char) (h : '/' ∉ base) :
    splitSlash cur base = [cur ++ base] := by
  induction base generalizing cur with
  | nil => simp [splitSlash]
  | cons c base ih =>
    have hc : c ≠ '/' := fun e => h (by simp [e])
    rw [splitSlash, if_neg hc, ih _ (fun x => h (by simp [x]))]
    simp

theorem splitSlash_ne (cur s : List Char) : splitSlash cur s ≠ [] := by
  induction s generalizing cur with
  | nil => simp [splitSlash]
  | cons c s ih =>
    rw [splitSlash]
    split
    · simp
    · exact ih _

theorem splitSlash_dir (cur dir base : List Char) (h : '/' ∉ base) :
    splitSlash cur (dir ++ '/' :: base) = splitSlash cur dir ++ [base] := by
  induction dir generalizing cur with
  | nil => simp [splitSlash, splitSlash_base [] base h]
  | cons c dir ih =>
    rw [List.cons_append, splitSlash, splitSlash]
    by_cases hc : c = '/'
    · rw [if_pos hc, if_pos hc, ih, List.cons_append]
    · rw [if_neg hc, if_neg hc, ih]

theorem join_split (cur s : List Char) : joinSlash (splitSlash cur s) = cur ++ s := by
  induction s generalizing cur with
  | nil => simp [splitSlash, joinSlash]
  | cons c s ih =>
    rw [splitSlash]
    by_cases hc : c = '/'
    · rw [if_pos hc]
      have hne := splitSlash_ne [] s
      have ih' := ih []
      obtain ⟨a, l, e⟩ := List.exists_cons_of_ne_nil hne
      rw [e] at ih' ⊢
      unfold joinSlash at ih' ⊢
      rw [List.intercalate_cons_cons, ih', hc]
      simp
    · rw [if_neg hc, ih]; simp

theorem replace_at_end (pat rep s : List Char) (x : Char) (hx : x ∉ pat) (hp : pat ≠ [])
    (h : ¬ pat <:+: s) : replace pat rep (s ++ x :: pat) = s ++ x :: rep := by
  have key : ∀ u : List Char, u <:+ s → replaceGo pat rep 0 (u ++ x :: pat) = u ++ x :: rep := by
    intro u
    induction u with
    | nil =>
      intro _
      rw [List.nil_append, replaceGo, if_neg]
      · obtain ⟨p, ps, rfl⟩ := List.exists_cons_of_ne_nil hp
        have hskip : ∀ l : List Char, replaceGo (p :: ps) rep l.length l = [] := by
          intro l
          induction l with
          | nil => rfl
          | cons a l ih => rw [List.length_cons, replaceGo]; exact ih
        rw [replaceGo, if_pos (by simp)]
        simp [hskip]
      · intro hpre
        obtain ⟨t, ht⟩ := List.isPrefixOf_iff_prefix.1 hpre
        obtain ⟨p, ps, rfl⟩ := List.exists_cons_of_ne_nil hp
        injection ht with h1 _
        exact hx (by simp [h1])
    | cons c u ih =>
      intro hu
      have hu' : u <:+ s := (List.suffix_cons c u).trans hu
      rw [List.cons_append, replaceGo, if_neg, ih hu', List.cons_append]
      intro hpre
      have hpre := List.isPrefixOf_iff_prefix.1 hpre
      rw [← List.cons_append] at hpre
      rcases List.prefix_or_prefix_of_prefix hpre (List.prefix_append (c :: u) (x :: pat)) with h1 | h1
      · exact h (h1.isInfix.trans hu.isInfix)
      · obtain ⟨t, rfl⟩ := h1
        obtain ⟨t', ht'⟩ := hpre
        rw [List.append_assoc, List.append_cancel_left_eq] at ht'
        cases t with
        | nil => exact h (by simpa using hu.isInfix)
        | cons y t =>
          rw [List.cons_append] at ht'
          injection ht' with h2 _
          exact hx (by simp [h2])
  exact key s (List.suffix_refl s)

theorem replace_prefix (pat s : List Char) (hp : pat ≠ []) :
    replace pat [] (pat ++ s) = replace pat [] s := by
  obtain ⟨p, ps, rfl⟩ := List.exists_cons_of_ne_nil hp
  unfold replace
  have hskip : ∀ l : List Char, replaceGo (p :: ps) [] l.length (l ++ s) =
      replaceGo (p :: ps) [] 0 s := by
    intro l
    induction l with
    | nil => rfl
    | cons a l ih => rw [List.length_cons, List.cons_append, replaceGo]; exact ih
  rw [List.cons_append, replaceGo, if_pos (by simp)]
  simp [hskip]

/-- C101: the table of `dir/vasprun<tag>.xml` is written to `dir/electron<tag>.yaml`. -/
theorem C101_output (dir tag : List Char) (hs : '/' ∉ tag)
    (hv : ¬ "vasprun".toList <:+: tag ++ ".xml".toList) (hx : ¬ "xml".toList <:+: tag) :
    outputName (dir ++ "/vasprun".toList ++ tag ++ ".xml".toList) =
      dir ++ "/electron".toList ++ tag ++ ".yaml".toList := by
  have hb : '/' ∉ "vasprun".toList ++ (tag ++ ".xml".toList) := by
    intro h
    rcases List.mem_append.1 h with h | h
    · exact absurd h (by decide)
    · rcases List.mem_append.1 h with h | h
      · exact hs h
      · exact absurd h (by decide)
  have e : dir ++ "/vasprun".toList ++ tag ++ ".xml".toList =
      dir ++ '/' :: ("vasprun".toList ++ (tag ++ ".xml".toList)) := by simp
  rw [e]
  unfold outputName
  simp only
  rw [splitSlash_dir _ _ _ hb, List.dropLast_concat, List.getLast?_concat, Option.getD_some,
    join_split, replace_prefix _ _ (by decide), Accuracy.replace_of_not_infix _ _ _ hv]
  have e2 : tag ++ ".xml".toList = tag ++ '.' :: "xml".toList := by simp
  rw [e2, replace_at_end _ _ _ '.' (by decide) (by decide) hx]
  simp

example : ('/' ∉ "-00012".toList) ∧ ¬ "vasprun".toList <:+: "-00012".toList ++ ".xml".toList ∧
    ¬ "xml".toList <:+: "-00012".toList := by decide

/-- C101: every table is written next to its file: what stands before the last `/` is kept. -/
theorem C101_same_directory (dir base : List Char) (h : '/' ∉ base) :
    ∃ rest, outputName (dir ++ '/' :: base) = dir ++ "/electron".toList ++ rest := by
  unfold outputName
  simp only
  rw [splitSlash_dir _ _ _ h, List.dropLast_concat, join_split, List.nil_append]
  exact ⟨_, rfl⟩

/-- C101: after all files of that form were read, each has its own table, and other files are as
before. -/
theorem C101_files {τ : Type} (table : List Char → Except Err τ)
    (vs : List (List Char × List Char)) (fs fs' : Dict (List Char) τ)
    (hvs : ∀ p ∈ vs, '/' ∉ p.2 ∧ ¬ "vasprun".toList <:+: p.2 ++ ".xml".toList ∧
      ¬ "xml".toList <:+: p.2)
    (h : computeAll table
      (vs.map fun p => p.1 ++ "/vasprun".toList ++ p.2 ++ ".xml".toList) fs = .ok fs') :
    (∀ p ∈ vs, ∃ t, table (p.1 ++ "/vasprun".toList ++ p.2 ++ ".xml".toList) = .ok t ∧
      fs'.get? (p.1 ++ "/electron".toList ++ p.2 ++ ".yaml".toList) = some t) ∧
    ∀ n, (∀ p ∈ vs, n ≠ p.1 ++ "/electron".toList ++ p.2 ++ ".yaml".toList) →
      fs'.get? n = fs.get? n := by
  induction vs generalizing fs with
  | nil =>
    simp only [List.map_nil, computeAll, Except.ok.injEq] at h
    subst h
    simp
  | cons p vs ih =>
    obtain ⟨h1, h2, h3⟩ := hvs p (by simp)
    simp only [List.map_cons, computeAll] at h
    rw [C101_output p.1 p.2 h1 h2 h3] at h
    cases ht : table (p.1 ++ "/vasprun".toList ++ p.2 ++ ".xml".toList) with
    | error e => rw [ht] at h; cases h
    | ok t =>
      rw [ht] at h
      simp only [bind, Except.bind] at h
      obtain ⟨i1, i2⟩ := ih _ (fun q hq => hvs q (by simp [hq])) h
      have inj : ∀ q ∈ vs, p.1 ++ "/electron".toList ++ p.2 ++ ".yaml".toList =
          q.1 ++ "/electron".toList ++ q.2 ++ ".yaml".toList → p = q := by
        intro q hq e
        have hq' := (hvs q (by simp [hq])).1
        have e1 := List.append_cancel_right e
        have s1 : ∀ r : List Char × List Char, '/' ∉ r.2 →
            splitSlash [] (r.1 ++ "/electron".toList ++ r.2) =
              splitSlash [] r.1 ++ ["electron".toList ++ r.2] := by
          intro r hr
          have e : r.1 ++ "/electron".toList ++ r.2 = r.1 ++ '/' :: ("electron".toList ++ r.2) := by
            simp
          rw [e]
          apply splitSlash_dir
          intro hm
          rcases List.mem_append.1 hm with hm | hm
          · exact absurd hm (by decide)
          · exact hr hm
        have e2 := congrArg (splitSlash []) e1
        rw [s1 p h1, s1 q hq'] at e2
        obtain ⟨e3, e4⟩ := List.append_inj' e2 rfl
        have e5 := congrArg joinSlash e3
        rw [join_split, join_split] at e5
        have e6 := List.append_cancel_left (List.singleton_inj.1 e4)
        exact Prod.ext (by simpa using e5) e6
      refine ⟨?_, ?_⟩
      · intro q hq
        by_cases hmem : q ∈ vs
        · exact i1 q hmem
        · rcases List.mem_cons.1 hq with rfl | hq
          · refine ⟨t, ht, ?_⟩
            rw [i2 _ (fun r hr e => hmem (by rw [inj r hr e]; exact hr)), Dict.get?_set, if_pos rfl]
          · exact absurd hq hmem
      · intro n hn
        rw [i2 n (fun q hq => hn q (by simp [hq])), Dict.get?_set, if_neg (hn p (by simp))]

example : outputName "a/vasprun-1.xml".toList = "a/electron-1.yaml".toList := by decide

/-- C101 (F162): the table of a file in the working directory is written to the root directory. -/
theorem C101_root_violation (base : List Char) (h : '/' ∉ base) :
    ∃ rest, outputName base = "/electron".toList ++ rest := by
  unfold outputName
  simp only
  rw [splitSlash_base _ _ h]
  exact ⟨_, rfl⟩

example : outputName "vasprun.xml".toList = "/electron.yaml".toList := by decide

end Verif.ElectronFiles
