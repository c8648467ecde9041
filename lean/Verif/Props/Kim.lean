import Verif.Spec.Kim
import Verif.Lemmas.Dict
import Verif.Props.MlpFiles
import Verif.Props.Repository

/-!
# C115: models for the KIM API
-/

namespace Verif.Kim
open Verif.MlpFiles

variable {P : Type}

/-! ### Dictionaries with new keys -/

theorem set_new {β : Type} (d : Dict String β) (k : String) (v : β) (h : k ∉ d.keys) : d.set k v = d ++ [(k, v)] := by
  unfold Dict.set
  rw [if_neg]
  intro h'
  rw [List.any_eq_true] at h'
  obtain ⟨x, hx, e⟩ := h'
  exact h (List.mem_map.2 ⟨x, hx, by simpa using e⟩)

theorem setAll_new {β : Type} (items : List (String × β)) (d : Dict String β) (hn : (items.map (·.1)).Nodup)
    (hd : ∀ x ∈ items, x.1 ∉ d.keys) : d.setAll items = d ++ items := by
  induction items generalizing d with
  | nil => simp [Dict.setAll]
  | cons x l ih =>
    have e : d.setAll (x :: l) = (d.set x.1 x.2).setAll l := rfl
    rw [List.map_cons, List.nodup_cons] at hn
    rw [e, set_new _ _ _ (hd x (by simp)), ih _ hn.2]
    · simp
    · intro y hy hmem
      simp only [Dict.keys, List.map_append, List.map_cons, List.map_nil, List.mem_append, List.mem_singleton] at hmem
      rcases hmem with h | h
      · exact hd y (by simp [hy]) h
      · exact hn.1 (List.mem_map.2 ⟨y, hy, h⟩)

/-! ### Names -/

theorem subName_inj (i j : ℕ) (h : subName "polymlp.yaml" i = subName "polymlp.yaml" j) : i = j := by
  have h' := congrArg String.toList h
  rw [subName_toList, subName_toList] at h'
  have h2 : (toString (i + 1)).toList = (toString (j + 1)).toList := by simpa using h'
  have h3 := congrArg (Nat.ofDigitChars 10 · 0) h2
  simp only [Nat.toString_eq_repr, Nat.toList_repr, Nat.ofDigitChars_ten_toDigits] at h3
  omega

theorem copyName_prefix (n i : ℕ) : "polymlp.yaml".toList.isPrefixOf (copyName n i).toList = true := by
  unfold copyName
  split
  · exact prefix_subName _ _
  · decide +kernel

theorem names_eq (n : ℕ) (hn : 0 < n) : ((List.range n).map (copyName n)) = Spec.kimFileNames n := by
  unfold Spec.kimFileNames copyName
  by_cases h : n = 1
  · subst h; rfl
  · rw [if_neg h]
    apply List.map_congr_left
    intro i _
    rw [if_pos (by omega)]
    rfl

theorem zfill_eq (width n : ℕ) : zfill width n = Spec.digits width n := by
  unfold zfill Spec.digits
  rw [String.ofList_append, String.ofList_toList]
  rfl

theorem name_eq (o : Options) (els : List String) (n : ℕ) :
    projectName o els (decide (1 < n)) = Spec.kimName o.author o.year o.level els n o.projectId o.version := by
  unfold projectName Spec.kimName
  rw [← zfill_eq, ← zfill_eq]
  simp only [String.intercalate_cons_cons, String.intercalate_singleton, String.append_assoc, decide_eq_true_eq]
  rfl

/-! ### The description -/

theorem inner_mid (n m i : ℕ) (l : List (String × String)) (k : ℕ) (hk : 0 < k) (hm : k + l.length < m) :
    (l.zipIdx k).flatMap (fun kv => citeLine n m i kv.2 kv.1) = l.flatMap fun e => [Tok.str e.1, Tok.str e.2] := by
  induction l generalizing k with
  | nil => rfl
  | cons x l ih =>
    simp only [List.length_cons] at hm
    rw [List.zipIdx_cons, List.flatMap_cons, List.flatMap_cons, ih (k + 1) (by omega) (by omega)]
    congr 1
    unfold citeLine
    rw [if_neg (by omega), if_neg (by omega), if_neg (by simp only; omega), if_neg (by simp only; omega)]

theorem inner (n i : ℕ) (c : List (String × String)) (hc : 2 ≤ c.length) :
    c.zipIdx.flatMap (fun kv => citeLine n c.length i kv.2 kv.1) =
      (if i = 0 then [Tok.str "source-citations", Tok.lbrack] else []) ++ Spec.ednTexts c ++
        (if i = n - 1 then [Tok.rbrack] else []) := by
  obtain ⟨a, t, rfl⟩ : ∃ a t, c = a :: t := by
    cases c with
    | nil => simp at hc
    | cons a t => exact ⟨a, t, rfl⟩
  have ht : t ≠ [] := by intro h; rw [h] at hc; simp at hc
  obtain ⟨mid, z, rfl⟩ : ∃ mid z, t = mid ++ [z] := ⟨t.dropLast, t.getLast ht, (List.dropLast_append_getLast ht).symm⟩
  rw [List.zipIdx_cons, List.zipIdx_append, List.flatMap_cons, List.flatMap_append,
    inner_mid n _ i mid 1 (by omega) (by simp; omega)]
  have e1 : citeLine n (a :: (mid ++ [z])).length i 0 a =
      (if i = 0 then [Tok.str "source-citations", Tok.lbrack] else []) ++ [Tok.lbrace, Tok.str a.1, Tok.str a.2] := by
    unfold citeLine
    by_cases hi : i = 0
    · rw [if_pos ⟨hi, rfl⟩, if_pos hi]; rfl
    · rw [if_neg (by omega), if_pos rfl, if_neg hi]; rfl
  have e2 : ([z].zipIdx (0 + 1 + mid.length)).flatMap (fun kv => citeLine n (a :: (mid ++ [z])).length i kv.2 kv.1) =
      [Tok.str z.1, Tok.str z.2, Tok.rbrace] ++ (if i = n - 1 then [Tok.rbrack] else []) := by
    have : ([z].zipIdx (0 + 1 + mid.length)).flatMap (fun kv => citeLine n (a :: (mid ++ [z])).length i kv.2 kv.1) =
        citeLine n (a :: (mid ++ [z])).length i (0 + 1 + mid.length) z := by simp [List.zipIdx]
    rw [this]
    unfold citeLine
    have hlen : 0 + 1 + mid.length = (a :: (mid ++ [z])).length - 1 := by simp; omega
    by_cases hi : i = n - 1
    · rw [if_neg (by omega), if_neg (by omega), if_pos ⟨hi, hlen⟩, if_pos hi]; rfl
    · rw [if_neg (by omega), if_neg (by omega), if_neg (fun h => hi h.1), if_pos hlen, if_neg hi]; rfl
  have e2' := e2
  simp only [Nat.zero_add] at e1 e2 ⊢
  rw [e1, e2]
  simp [Spec.ednTexts]

theorem outer (n : ℕ) (l : List (List (String × String))) (hl : ∀ c ∈ l, 2 ≤ c.length) (k : ℕ) (hk : k + l.length = n)
    (hne : l ≠ []) :
    (l.zipIdx k).flatMap (fun c => c.1.zipIdx.flatMap fun kv => citeLine n c.1.length c.2 kv.2 kv.1) =
      (if k = 0 then [Tok.str "source-citations", Tok.lbrack] else []) ++ l.flatMap Spec.ednTexts ++ [Tok.rbrack] := by
  induction l generalizing k with
  | nil => exact absurd rfl hne
  | cons c l ih =>
    simp only [List.length_cons] at hk
    rw [List.zipIdx_cons, List.flatMap_cons, List.flatMap_cons]
    simp only
    rw [inner n k c (hl c (by simp))]
    by_cases h : l = []
    · subst h
      rw [if_pos (by simp at hk; omega) (c := k = n - 1)]
      simp
    · have : 0 < l.length := List.length_pos_iff.2 h
      rw [ih (fun c hc => hl c (by simp [hc])) (k + 1) (by omega) h, if_neg (by omega) (c := k = n - 1),
        if_neg (by omega) (c := k + 1 = 0)]
      simp

theorem cite_tokens (l : List (List (String × String))) (hl : ∀ c ∈ l, 2 ≤ c.length) (hne : l ≠ []) :
    citeTokens l = Tok.str "source-citations" :: (Spec.EdnValue.maps l).tokens := by
  unfold citeTokens
  rw [outer l.length l hl 0 (by omega) hne]
  rfl

theorem developer_tokens (dev : Option (List String)) (h : dev ≠ some []) :
    developerTokens dev = .ok ((Spec.entryOf "developer" (dev.map .texts)).flatMap fun e => Tok.str e.1 :: e.2.tokens) := by
  unfold developerTokens
  split
  · rfl
  · exact absurd rfl h
  · rfl
  · rfl
  · rename_i d l h1 h2
    have hl : l ≠ [] := fun h' => h1 h'
    congr 1
    rw [List.getLast?_eq_some_getLast hl]
    simp only [Option.map_some, Option.toList_some, Spec.entryOf, Spec.EdnValue.tokens, List.flatMap_cons, List.flatMap_nil,
      List.append_nil, List.map_cons]
    conv_rhs => rw [← List.dropLast_append_getLast hl]
    simp

theorem field_tokens (key : String) (v : Option String) :
    field key v = (Spec.entryOf key (v.map .text)).flatMap fun e => Tok.str e.1 :: e.2.tokens := by
  cases v <;> rfl

theorem title_eq (o : Options) (els : List String) : titleOf o els =
    "Polynomial machine learning potential for " ++ "-".intercalate els ++ " developed by Seko (" ++ toString o.year ++ ") v" ++
      Spec.digits 3 o.version := by
  unfold titleOf
  rw [← zfill_eq]
  simp only [String.intercalate_cons_cons, String.intercalate_singleton, String.append_assoc]
  have e1 : ("Polynomial machine learning potential for " : String) = "Polynomial machine learning potential for" ++ " " := by
    decide +kernel
  have e2 : (" developed by Seko (" : String) = " " ++ "developed by Seko (" := by decide +kernel
  have e3 : (") v" : String) = ")" ++ (" " ++ "v") := by decide +kernel
  rw [e1, e2, e3]
  simp only [String.append_assoc]

theorem description_eq (o : Options) (els : List String) : descriptionOf o els = o.description.getD
    ("Polynomial machine learning potential (MLP) for " ++ "-".intercalate els ++ " system.") := by
  unfold descriptionOf
  cases o.description with
  | some d => rfl
  | none =>
    simp only [String.intercalate_cons_cons, String.intercalate_singleton, Option.getD_none]
    have e1 : ("Polynomial machine learning potential (MLP) for " : String) =
        "Polynomial machine learning potential (MLP) for" ++ " " := by decide +kernel
    have e2 : (" system." : String) = " " ++ "system." := by decide +kernel
    rw [e1, e2]
    simp only [String.append_assoc]

theorem spec_tokens (o : Options) (els : List String) (project : String) (t : List Tok)
    (hd : o.developer ≠ some []) (ht : developerTokens o.developer = .ok t)
    (hc : ∀ l, o.citations = some l → l ≠ [] ∧ ∀ c ∈ l, 2 ≤ c.length) :
    specHead o (descriptionOf o els) ++ t ++ specTail o project els = Spec.ednMap (Spec.kimEntries o els project) := by
  rw [developer_tokens _ hd] at ht
  cases ht
  have hcite : citesOf o.citations =
      (Spec.entryOf "source-citations" (o.citations.map .maps)).flatMap fun e => Tok.str e.1 :: e.2.tokens := by
    cases h : o.citations with
    | none => rfl
    | some l =>
      simp [citesOf, cite_tokens l (hc l h).2 (hc l h).1, Spec.entryOf]
  unfold specHead specTail Spec.ednMap Spec.kimEntries
  rw [hcite, description_eq, title_eq]
  simp only [field_tokens, List.flatMap_append, List.flatMap_cons, List.flatMap_nil, List.append_assoc, List.nil_append,
    List.append_nil, Spec.EdnValue.tokens, Option.map_some, Spec.entryOf, List.cons_append]

/-! ### Copies of the potentials -/

theorem yaml_iff (ext : Ext P) (f : String) (p : P) : yamlOf ext f = .ok p ↔ Spec.KimPotential ext f p := by
  unfold yamlOf Spec.KimPotential
  simp only [bind, Except.bind, pure, Except.pure]
  cases h : ext.read f with
  | error e => simp
  | ok q =>
    simp only [Except.ok.injEq, exists_eq_left']
    cases hl : ext.legacy q
    · simp [eq_comm]
    · simp

theorem loop_pos (ext : Ext P) (n : ℕ) (fs : List String) (pots : List P)
    (h : List.Forall₂ (fun f p => yamlOf ext f = .ok p) fs pots) (i : ℕ) (hi : i ≠ 0) (els : Option (List String)) (d : Dir P) :
    copyLoop ext n i fs els d = (d.setAll ((pots.zipIdx i).map fun p => (copyName n p.2, File.pot p.1)), .ok els) := by
  induction h generalizing i d with
  | nil => rfl
  | cons h1 _ ih =>
    rename_i f p fs pots _
    rw [copyLoop, h1]
    simp only [elementsOf, hi, if_false]
    rw [ih (i + 1) (by omega)]
    rfl

/-- The copies of the potentials. -/
def copies (pots : List P) : Dir P := pots.zipIdx.map fun p => (copyName pots.length p.2, File.pot p.1)

theorem copies_keys (pots : List P) : (copies pots).keys = (List.range pots.length).map (copyName pots.length) := by
  unfold copies Dict.keys
  rw [List.map_map, List.range_eq_range', ← List.zipIdx_map_snd 0 pots, List.map_map]
  rfl

theorem copies_nodup (pots : List P) : (copies pots).keys.Nodup := by
  rw [copies_keys]
  unfold copyName
  by_cases h : 1 < pots.length
  · rw [List.nodup_map_iff_inj_on List.nodup_range]
    intro i _ j _ e
    simp only [h, if_true] at e
    exact subName_inj i j e
  · have : pots.length = 0 ∨ pots.length = 1 := by omega
    rcases this with h | h <;> simp [h]

theorem loop_all (ext : Ext P) (fs : List String) (pots : List P)
    (h : List.Forall₂ (fun f p => yamlOf ext f = .ok p) fs pots) (p0 : P) (hp : pots.head? = some p0) (els : List String)
    (he : ext.elements p0 = .ok els) :
    copyLoop ext fs.length 0 fs none [] = (copies pots, .ok (some els)) := by
  have hc : copies pots = Dict.setAll ([] : Dir P) (copies pots) := by
    rw [setAll_new _ _ (copies_nodup pots) (by simp [Dict.keys])]; rfl
  rw [hc]
  have hl := h.length_eq
  cases h with
  | nil => cases hp
  | cons h1 ht =>
    rename_i f p fs pots
    simp only [List.head?_cons, Option.some.injEq] at hp
    subst hp
    rw [copyLoop, h1]
    simp only [elementsOf, if_true, he, Except.map]
    rw [loop_pos ext _ fs pots ht (0 + 1) (by omega), hl]
    rfl

theorem potentials_perm (pots : List P) (hn : pots ≠ []) :
    (potentials (copies pots)).Perm (Spec.kimFileNames pots.length) ∧ (potentials (copies pots)).length = pots.length := by
  unfold potentials
  have e : (copies pots).keys.filter (fun f => "polymlp.yaml".toList.isPrefixOf f.toList) = (copies pots).keys := by
    rw [List.filter_eq_self]
    intro f hf
    rw [copies_keys] at hf
    obtain ⟨i, _, rfl⟩ := List.mem_map.1 hf
    exact copyName_prefix _ i
  rw [e]
  have := sortNames_perm (copies pots).keys
  rw [copies_keys, names_eq _ (List.length_pos_iff.2 hn)] at this ⊢
  refine ⟨this, ?_⟩
  rw [this.length_eq, ← names_eq _ (List.length_pos_iff.2 hn)]
  simp

theorem not_prefix_keys (pots : List P) (k : String) (h : "polymlp.yaml".toList.isPrefixOf k.toList = false) :
    k ∉ (copies pots).keys := by
  intro hk
  rw [copies_keys] at hk
  obtain ⟨i, _, rfl⟩ := List.mem_map.1 hk
  rw [copyName_prefix] at h
  cases h

theorem archive_false (f : String) (h : ¬ ".lammps.tar.gz".toList <:+: f.toList) : isArchive f = false := by
  by_contra hc
  rw [Bool.not_eq_false] at hc
  unfold isArchive at hc
  rw [List.any_eq_true] at hc
  obtain ⟨t, ht, hp⟩ := hc
  rw [List.isPrefixOf_iff_prefix] at hp
  exact h (hp.isInfix.trans ((List.mem_tails _ _).1 ht).isInfix)

/-- **C115.** When no temporary directory is left, the files can be read and there is no model with this name, a new directory is
written: for any order in which the files are sorted it has exactly the potentials of the given files in the new format, the
settings, the list of the parameter files, in which every potential occurs once, and the description, which is a well-formed
map with all the data that were given; a license is added. The temporary directory is removed and nothing else is
changed. -/
theorem C115_model (ext : Ext P) (o : Options) (files : List String) (w : World P) (hw : w.tmp = none) (hne : files ≠ [])
    (ha : ∀ f ∈ files, ¬ ".lammps.tar.gz".toList <:+: f.toList)
    (hr : ∀ f ∈ files, ∃ p, Spec.KimPotential ext f p) (els : List String)
    (he : ∀ f ∈ files, ∀ p, Spec.KimPotential ext f p → ext.elements p = .ok els)
    (hd : o.developer ≠ some []) (hc : ∀ l, o.citations = some l → l ≠ [] ∧ ∀ c ∈ l, 2 ≤ c.length)
    (hl : ∀ l, o.license = some l → ∃ name, ext.license l = .ok name)
    (hnew : w.projects.get? (Spec.kimName o.author o.year o.level els files.length o.projectId o.version) = none) :
    ∃ (w' : World P) (order : List String) (pots : List P) (parameters : List String) (dir : Dict String (File P)),
      convert ext o files w = (w', .ok ()) ∧ w'.tmp = none ∧
      (∀ q, w'.projects.get? q =
        if q = Spec.kimName o.author o.year o.level els files.length o.projectId o.version then some ⟨dir, none⟩
        else w.projects.get? q) ∧
      order.Perm files ∧ List.Forall₂ (Spec.KimPotential ext) order pots ∧
      parameters.Perm (Spec.kimFileNames files.length) ∧
      ∀ name, dir.get? name =
        if ∃ l, o.license = some l ∧ ext.license l = .ok name then some .license
        else Dict.get? ((Spec.kimFileNames files.length).zip (pots.map File.pot) ++
          [("polymlp.settings", .settings els),
           ("CMakeLists.txt", .cmake (Spec.kimName o.author o.year o.level els files.length o.projectId o.version) o.driver
              ("polymlp.settings" :: parameters)),
           ("kimspec.edn", .spec (Spec.ednMap (Spec.kimEntries o els
              (Spec.kimName o.author o.year o.level els files.length o.projectId o.version))))]) name := by
  have hso := sortNames_perm files
  obtain ⟨pots, hp⟩ : ∃ pots, List.Forall₂ (fun f p => yamlOf ext f = .ok p) (sortNames files) pots := by
    have : ∀ l : List String, (∀ f ∈ l, f ∈ files) → ∃ pots, List.Forall₂ (fun f p => yamlOf ext f = .ok p) l pots := by
      intro l
      induction l with
      | nil => exact fun _ => ⟨[], .nil⟩
      | cons f l ih =>
        intro h
        obtain ⟨p, hp⟩ := hr f (h f (by simp))
        obtain ⟨ps, hps⟩ := ih fun g hg => h g (by simp [hg])
        exact ⟨p :: ps, .cons ((yaml_iff ext f p).2 hp) hps⟩
    exact this _ fun f hf => hso.mem_iff.1 hf
  have hlen : pots.length = files.length := by rw [← hp.length_eq, hso.length_eq]
  have hpne : pots ≠ [] := by
    intro h; rw [h] at hlen; exact hne (List.length_eq_zero_iff.1 hlen.symm)
  obtain ⟨p0, rest, hp0⟩ : ∃ p0 rest, pots = p0 :: rest := by
    cases pots with
    | nil => exact absurd rfl hpne
    | cons a b => exact ⟨a, b, rfl⟩
  have he0 : ext.elements p0 = .ok els := by
    have hp' := hp
    rw [hp0] at hp'
    cases hs : sortNames files with
    | nil => rw [hs] at hp'; cases hp'
    | cons f fs =>
      rw [hs] at hp'
      cases hp' with
      | cons h1 _ => exact he f (hso.mem_iff.1 (by rw [hs]; simp)) p0 ((yaml_iff ext f p0).1 h1)
  have hfiles : filesOf ext files = .ok files := by
    unfold filesOf
    rw [List.find?_eq_none.2 fun f hf => by rw [archive_false f (ha f hf)]; simp]
  have hcopy : copyMlps ext files (w.tmp.getD []) = (copies pots, .ok els) := by
    unfold copyMlps
    rw [hfiles, hw]
    simp only [Option.getD_none]
    rw [← hso.length_eq, loop_all ext _ pots hp p0 (by rw [hp0]; rfl) els he0]
  obtain ⟨hperm, hplen⟩ := potentials_perm pots hpne
  rw [hlen] at hperm hplen
  obtain ⟨t, ht⟩ : ∃ t, developerTokens o.developer = .ok t := ⟨_, developer_tokens _ hd⟩
  have hgen : generate o els (copies pots) = (copies pots ++
      [("polymlp.settings", .settings els),
       ("CMakeLists.txt", .cmake (Spec.kimName o.author o.year o.level els files.length o.projectId o.version) o.driver
          ("polymlp.settings" :: potentials (copies pots))),
       ("kimspec.edn", .spec (Spec.ednMap (Spec.kimEntries o els
          (Spec.kimName o.author o.year o.level els files.length o.projectId o.version))))],
      .ok (Spec.kimName o.author o.year o.level els files.length o.projectId o.version)) := by
    unfold generate
    simp only [hplen, ht, name_eq]
    have h1 := not_prefix_keys pots "polymlp.settings" (by decide +kernel)
    have h2 := not_prefix_keys pots "CMakeLists.txt" (by decide +kernel)
    have h3 := not_prefix_keys pots "kimspec.edn" (by decide +kernel)
    have h2' : "CMakeLists.txt" ∉ Dict.keys (copies pots ++ [("polymlp.settings", File.settings els)]) := by
      intro h
      simp only [Dict.keys, List.map_append, List.map_cons, List.map_nil, List.mem_append, List.mem_singleton] at h
      rcases h with h | h
      · exact h2 h
      · exact absurd h (by decide +kernel)
    rw [spec_tokens o els _ t hd ht hc, set_new _ _ _ h1, set_new _ _ _ h2', set_new]
    · simp
    · intro h
      simp only [Dict.keys, List.map_append, List.map_cons, List.map_nil, List.mem_append, List.mem_singleton] at h
      rcases h with (h | h) | h
      · exact h3 h
      · exact absurd h (by decide +kernel)
      · exact absurd h (by decide +kernel)
  have hzip : copies pots = (Spec.kimFileNames files.length).zip (pots.map File.pot) := by
    rw [← hlen, ← names_eq _ (List.length_pos_iff.2 hpne), ← copies_keys]
    unfold copies Dict.keys
    apply List.ext_getElem
    · simp
    · intro i h1 h2
      simp
  have hbase : convert ext o files w = addLicense ext o.license
      (Spec.kimName o.author o.year o.level els files.length o.projectId o.version) ⟨none, w.projects.set
      (Spec.kimName o.author o.year o.level els files.length o.projectId o.version) ⟨copies pots ++
      [("polymlp.settings", .settings els),
       ("CMakeLists.txt", .cmake (Spec.kimName o.author o.year o.level els files.length o.projectId o.version) o.driver
          ("polymlp.settings" :: potentials (copies pots))),
       ("kimspec.edn", .spec (Spec.ednMap (Spec.kimEntries o els
          (Spec.kimName o.author o.year o.level els files.length o.projectId o.version))))], none⟩⟩ := by
    unfold convert
    simp only [hcopy, hgen, move, hnew]
  have hf : List.Forall₂ (Spec.KimPotential ext) (sortNames files) pots := hp.imp fun f p h => (yaml_iff ext f p).1 h
  rw [hzip] at hperm hbase
  obtain ⟨params, hparams⟩ : ∃ x, x = potentials ((Spec.kimFileNames files.length).zip (pots.map File.pot)) := ⟨_, rfl⟩
  rw [← hparams] at hperm hbase
  obtain ⟨project, hproject⟩ : ∃ x, x = Spec.kimName o.author o.year o.level els files.length o.projectId o.version := ⟨_, rfl⟩
  rw [← hproject] at hbase ⊢
  obtain ⟨base, hb⟩ : ∃ x : Dict String (File P), x = (Spec.kimFileNames files.length).zip (pots.map File.pot) ++
          [("polymlp.settings", .settings els), ("CMakeLists.txt", .cmake project o.driver ("polymlp.settings" :: params)),
           ("kimspec.edn", .spec (Spec.ednMap (Spec.kimEntries o els project)))] := ⟨_, rfl⟩
  rw [← hb] at hbase
  rw [hbase]
  unfold addLicense
  cases hlic : o.license with
  | none =>
    refine ⟨⟨none, w.projects.set project ⟨base, none⟩⟩, sortNames files, pots, params, base, rfl, rfl, ?_, hso, hf, hperm, ?_⟩
    · intro q
      simp only [Dict.get?_set]
    · intro name
      rw [if_neg (by simp), hb]
  | some l =>
    obtain ⟨name, hname⟩ := hl l hlic
    simp only [hname, Dict.get?_set, if_true]
    refine ⟨⟨none, (w.projects.set project ⟨base, none⟩).set project ⟨base.set name .license, none⟩⟩, sortNames files, pots, params,
      base.set name .license, rfl, rfl, ?_, hso, hf, hperm, ?_⟩
    · intro q
      simp only [Dict.get?_set]
      split <;> rfl
    · intro name'
      rw [Dict.get?_set]
      by_cases hq : name' = name
      · rw [if_pos hq, if_pos ⟨l, rfl, by rw [hname, hq]⟩]
      · rw [if_neg hq, if_neg, hb]
        rintro ⟨l', h1, h2⟩
        cases h1
        rw [hname] at h2
        exact hq (Except.ok.inj h2).symm

/-- **C115.** The order in which the files are given does not matter. -/
theorem C115_order (ext : Ext P) (o : Options) (files files' : List String) (w : World P) (hp : files.Perm files')
    (ha : ∀ f ∈ files, ¬ ".lammps.tar.gz".toList <:+: f.toList) : convert ext o files w = convert ext o files' w := by
  have h1 : ∀ l : List String, (∀ f ∈ l, ¬ ".lammps.tar.gz".toList <:+: f.toList) → filesOf ext l = .ok l := by
    intro l hl
    unfold filesOf
    rw [List.find?_eq_none.2 fun f hf => by rw [archive_false f (hl f hf)]; simp]
  have h2 : sortNames files = sortNames files' :=
    sortNames_unique _ _ ((sortNames_perm files').trans hp.symm) (sortNames_sorted files')
  have h3 : copyMlps ext files = copyMlps ext files' := by
    funext d
    unfold copyMlps
    rw [h1 files ha, h1 files' fun f hf => ha f (hp.mem_iff.2 hf)]
    simp only [h2, hp.length_eq]
  unfold convert
  rw [h3]

theorem move_cases (w : World P) (d : Dir P) (project : String) :
    ((move w d project).1.projects = w.projects ∧ (move w d project).2 = .error .runtimeError) ∨
    ((move w d project).2 = .ok () ∧ ∀ q p, w.projects.get? q = some p → ∃ n, (move w d project).1.projects.get? q = some ⟨p.files, n⟩ ∧
      (p.nested.isSome → n = p.nested)) := by
  unfold move
  cases h : w.projects.get? project with
  | none =>
    right
    refine ⟨rfl, fun q p hq => ⟨p.nested, ?_, fun _ => rfl⟩⟩
    simp only [Dict.get?_set]
    rw [if_neg (by intro e; rw [e, h] at hq; cases hq)]
    exact hq
  | some pr =>
    obtain ⟨f, nest⟩ := pr
    cases nest with
    | some x => exact Or.inl ⟨rfl, rfl⟩
    | none =>
      right
      refine ⟨rfl, fun q p hq => ?_⟩
      simp only [Dict.get?_set]
      by_cases e : q = project
      · rw [e, h] at hq
        cases hq
        exact ⟨_, by rw [if_pos e], fun h => by cases h⟩
      · exact ⟨p.nested, by rw [if_neg e]; exact hq, fun _ => rfl⟩

theorem convert_move (ext : Ext P) (o : Options) (files : List String) (w : World P) :
    (∃ d e, convert ext o files w = ({ w with tmp := some d }, .error e)) ∨
    ∃ d project, (convert ext o files w = ((move w d project).1, .error .runtimeError) ∧ (move w d project).2 = .error .runtimeError) ∨
      ((move w d project).2 = .ok () ∧ convert ext o files w = addLicense ext o.license project (move w d project).1) := by
  unfold convert
  cases h1 : copyMlps ext files (w.tmp.getD []) with
  | mk d r1 =>
    cases r1 with
    | error e => exact Or.inl ⟨d, e, rfl⟩
    | ok els =>
      simp only
      cases h2 : generate o els d with
      | mk d2 r2 =>
        cases r2 with
        | error e => exact Or.inl ⟨d2, e, rfl⟩
        | ok project =>
          simp only
          refine Or.inr ⟨d2, project, ?_⟩
          rcases move_cases w d2 project with ⟨_, h⟩ | ⟨h, _⟩
          · cases hm : move w d2 project with
            | mk w' r =>
              rw [hm] at h
              simp only at h
              subst h
              exact Or.inl ⟨rfl, rfl⟩
          · cases hm : move w d2 project with
            | mk w' r =>
              rw [hm] at h
              simp only at h
              subst h
              exact Or.inr ⟨rfl, rfl⟩

theorem archive_true (f : String) (h : ".lammps.tar.gz".toList <:+: f.toList) : isArchive f = true := by
  unfold isArchive
  rw [List.any_eq_true]
  obtain ⟨s, t, e⟩ := h
  refine ⟨".lammps.tar.gz".toList ++ t, ?_, by simp⟩
  rw [List.mem_tails, ← e, List.append_assoc]
  exact List.suffix_append _ _

open Classical in
/-- **C115.** With an archive among the given files, the model is the one of the files that are found after unpacking the first
archive, without archives; the other given files are not used. An archive that cannot be unpacked is an error. -/
theorem C115_archive (ext : Ext P) (o : Options) (a b : List String) (t : String) (w : World P)
    (ha : ∀ f ∈ a, ¬ ".lammps.tar.gz".toList <:+: f.toList) (ht : ".lammps.tar.gz".toList <:+: t.toList) :
    (∀ l, ext.unpack t = .ok l → convert ext o (a ++ t :: b) w =
      convert ext o (l.filter fun f => decide (¬ ".lammps.tar.gz".toList <:+: f.toList)) w) ∧
    (∀ e, ext.unpack t = .error e → (convert ext o (a ++ t :: b) w).2 = .error e) := by
  have hfind : (a ++ t :: b).find? isArchive = some t := by
    rw [List.find?_append, List.find?_eq_none.2 fun f hf => by rw [archive_false f (ha f hf)]; simp]
    rw [Option.none_or, List.find?_cons_of_pos (archive_true t ht)]
  constructor
  · intro l hl
    have e : (l.filter fun f => decide (¬ ".lammps.tar.gz".toList <:+: f.toList)) = l.filter fun f => !(isArchive f) := by
      apply List.filter_congr
      intro f _
      by_cases hf : ".lammps.tar.gz".toList <:+: f.toList
      · rw [archive_true f hf, decide_eq_false (not_not_intro hf)]; rfl
      · rw [archive_false f hf, decide_eq_true hf]; rfl
    have h1 : filesOf ext (a ++ t :: b) = .ok (l.filter fun f => !(isArchive f)) := by
      unfold filesOf
      rw [hfind]
      simp only [hl, Except.map]
    have h2 : filesOf ext (l.filter fun f => !(isArchive f)) = .ok (l.filter fun f => !(isArchive f)) := by
      unfold filesOf
      rw [List.find?_eq_none.2]
      intro f hf
      simpa using (List.mem_filter.1 hf).2
    rw [e]
    unfold convert copyMlps
    rw [h1, h2]
  · intro e he
    have h1 : filesOf ext (a ++ t :: b) = .error e := by
      unfold filesOf
      rw [hfind]
      simp only [he, Except.map]
    unfold convert copyMlps
    rw [h1]

/-- **C115.** Whatever is left from earlier runs and whether or not the conversion succeeds, no file of an existing model is
changed or removed, except for one with the name of the license file. -/
theorem C115_frame (ext : Ext P) (o : Options) (files : List String) (w : World P) (q : String) (p : Project P)
    (h : w.projects.get? q = some p) :
    ∃ p', (convert ext o files w).1.projects.get? q = some p' ∧
      (∀ name, (∀ l, o.license = some l → ext.license l ≠ .ok name) → p'.files.get? name = p.files.get? name) ∧
      (p.nested.isSome → p'.nested = p.nested) := by
  rcases convert_move ext o files w with ⟨d, e, hc⟩ | ⟨d, project, ⟨hc, he⟩ | ⟨hok, hc⟩⟩
  · rw [hc]; exact ⟨p, h, fun _ _ => rfl, fun _ => rfl⟩
  · rcases move_cases w d project with ⟨hm, _⟩ | ⟨hm, _⟩
    · rw [hc]; exact ⟨p, by rw [hm]; exact h, fun _ _ => rfl, fun _ => rfl⟩
    · rw [hm] at he; cases he
  · rcases move_cases w d project with ⟨_, hm⟩ | ⟨_, hm⟩
    · rw [hm] at hok; cases hok
    · obtain ⟨n, hn, hn2⟩ := hm q p h
      rw [hc]
      unfold addLicense
      split
      · exact ⟨_, hn, fun _ _ => rfl, hn2⟩
      · rename_i l hl
        split
        · exact ⟨_, hn, fun _ _ => rfl, hn2⟩
        · rename_i name p2 hname hp2
          simp only [Dict.get?_set]
          by_cases e : q = project
          · subst e
            rw [if_pos rfl]
            rw [hn] at hp2
            cases hp2
            refine ⟨_, rfl, fun name' hn' => ?_, hn2⟩
            simp only [Dict.get?_set]
            rw [if_neg]
            intro e'
            exact hn' l hl (by rw [e', hname])
          · rw [if_neg e]
            exact ⟨_, hn, fun _ _ => rfl, hn2⟩
        · exact ⟨_, hn, fun _ _ => rfl, hn2⟩

/-- **C115.** A conversion without a license file that fails leaves the models as they were. -/
theorem C115_failure (ext : Ext P) (o : Options) (files : List String) (w w' : World P) (e : Err) (hl : o.license = none)
    (h : convert ext o files w = (w', .error e)) : w'.projects = w.projects := by
  rcases convert_move ext o files w with ⟨d, e', hc⟩ | ⟨d, project, ⟨hc, he⟩ | ⟨hok, hc⟩⟩
  · rw [hc] at h; cases h; rfl
  · rw [hc] at h
    rcases move_cases w d project with ⟨hm, _⟩ | ⟨hm, _⟩
    · cases h; exact hm
    · rw [hm] at he; cases he
  · rw [hc, hl] at h
    cases h

/-! ### Names of models -/

theorem digits_value (width n : ℕ) : Nat.ofDigitChars 10 (Spec.digits width n).toList 0 = n := by
  unfold Spec.digits
  rw [String.toList_append, String.toList_ofList, Nat.ofDigitChars_append, Nat.ofDigitChars_replicate_zero,
    Nat.toString_eq_repr, Nat.toList_repr, Nat.mul_zero, Nat.ofDigitChars_ten_toDigits]

theorem digits_no_bar (width n : ℕ) : '_' ∉ (Spec.digits width n).toList := by
  unfold Spec.digits
  rw [String.toList_append, String.toList_ofList, Nat.toString_eq_repr, Nat.toList_repr]
  intro h
  rcases List.mem_append.1 h with h | h
  · exact absurd (List.eq_of_mem_replicate h) (by decide)
  · exact absurd (Nat.isDigit_of_mem_toDigits (by decide) (by decide) h) (by decide)

theorem bar_split (a b a' b' : List Char) (h : a ++ '_' :: b = a' ++ '_' :: b') (ha : '_' ∉ a) (ha' : '_' ∉ a') :
    a = a' ∧ b = b' := by
  induction a generalizing a' with
  | nil =>
    cases a' with
    | nil => exact ⟨rfl, by simpa using h⟩
    | cons x a' =>
      simp only [List.nil_append, List.cons_append, List.cons.injEq] at h
      exact absurd (by rw [← h.1]; simp) ha'
  | cons y a ih =>
    cases a' with
    | nil =>
      simp only [List.nil_append, List.cons_append, List.cons.injEq] at h
      exact absurd (by rw [h.1]; simp) ha
    | cons x a' =>
      simp only [List.cons_append, List.cons.injEq] at h
      obtain ⟨h1, h2⟩ := ih a' h.2 (fun hm => ha (by simp [hm])) (fun hm => ha' (by simp [hm]))
      exact ⟨by rw [h.1, h1], h2⟩

/-- **C115.** Models of the same potential with different identifiers or versions have different names, so that they are put
into different directories. -/
theorem C115_names_apart (author : String) (year level : ℕ) (elements : List String) (n i v i' v' : ℕ)
    (h : Spec.kimName author year level elements n i v = Spec.kimName author year level elements n i' v') :
    i = i' ∧ v = v' := by
  have h1 := congrArg String.toList h
  unfold Spec.kimName at h1
  simp only [String.toList_append, List.append_assoc, List.append_cancel_left_eq] at h1
  have e : ("_" : String).toList = ['_'] := by decide +kernel
  rw [e, List.singleton_append, List.singleton_append] at h1
  obtain ⟨h2, h3⟩ := bar_split _ _ _ _ h1 (digits_no_bar 12 i) (digits_no_bar 12 i')
  have h4 : Nat.ofDigitChars 10 (Spec.digits 12 i).toList 0 = Nat.ofDigitChars 10 (Spec.digits 12 i').toList 0 := by rw [h2]
  have h5 : Nat.ofDigitChars 10 (Spec.digits 3 v).toList 0 = Nat.ofDigitChars 10 (Spec.digits 3 v').toList 0 := by rw [h3]
  rw [digits_value, digits_value] at h4 h5
  exact ⟨h4, h5⟩

/-! ### Examples -/

/-- Potentials are numbers, those above 10 are in the old format. -/
def extK : Ext ℕ where
  read f := if f = "old" then .ok 11 else if f = "new" then .ok 2 else if f = "other" then .ok 3 else .error .runtimeError
  legacy p := decide (10 < p)
  toYaml p := .ok (p - 10)
  elements _ := .ok ["Mg", "O"]
  unpack _ := .error .runtimeError
  license l := .ok l

/-- Options with the year 2026 and two citations. -/
def optK : Options := { developer := some ["A", "B", "C"], citations := some [[("a", "b"), ("c", "d")], [("e", "f"), ("g", "h"), ("i", "j")]], license := some "LICENSE" }

theorem pair_ok (c : World ℕ × Except Err Unit) (h : c.2.toOption = some ()) : c = (c.1, .ok ()) := by
  obtain ⟨w, r⟩ := c
  cases r with
  | error e => cases h
  | ok u => rfl

theorem pair_error (c : World ℕ × Except Err Unit) (e : Err)
    (h : (match c.2 with | .error e => some e | .ok _ => none) = some e) : c = (c.1, .error e) := by
  obtain ⟨w, r⟩ := c
  cases r with
  | error e' => cases h; rfl
  | ok u => cases h

/-- Non-vacuity of `C115_model`. -/
example : ∃ w', convert extK optK ["old", "new"] ⟨none, []⟩ = (w', .ok ()) := by
  obtain ⟨w', _, _, _, _, h, _⟩ := C115_model extK optK ["old", "new"] ⟨none, []⟩ rfl (by decide) (by
      intro f hf
      simp only [List.mem_cons, List.not_mem_nil, or_false] at hf
      rcases hf with rfl | rfl <;> decide +kernel) (by
      intro f hf
      simp only [List.mem_cons, List.not_mem_nil, or_false] at hf
      rcases hf with rfl | rfl
      · exact ⟨1, 11, by decide, Or.inl (by decide)⟩
      · exact ⟨2, 2, by decide, Or.inr (by decide)⟩) ["Mg", "O"] (fun _ _ _ _ => rfl) (by decide) (by
      intro l hl
      cases hl
      decide) (fun l _ => ⟨l, rfl⟩) rfl
  exact ⟨w', h⟩

/-- An archive among the files: two potentials are unpacked beside it. -/
example :
    let ext : Ext ℕ := { extK with unpack := fun _ => .ok ["new", "m.lammps.tar.gz", "other"] }
    ((convert ext optK ["a", "m.lammps.tar.gz", "b"] ⟨none, []⟩).2.toOption.isSome ∧
    (convert ext optK ["a", "m.lammps.tar.gz", "b"] ⟨none, []⟩).1.projects.map (·.1) =
      [Spec.kimName "Seko" 2026 1 ["Mg", "O"] 2 0 0]) := by
  decide +kernel

/-- **C115, counterexample.** A conversion that failed leaves its potentials in the temporary directory; they become part of the
next model, which has one given potential and three potential files. -/
theorem C115_stale_violation :
    ∃ (w1 w2 : World ℕ) (p : Project ℕ),
      convert extK { optK with developer := some [] } ["old", "new"] ⟨none, []⟩ = (w1, .error .indexError) ∧
      convert extK { optK with author := "X" } ["other"] w1 = (w2, .ok ()) ∧
      w2.projects.get? (Spec.kimName "X" 2026 1 ["Mg", "O"] 3 0 0) = some p ∧
      p.files.get? "polymlp.yaml" = some (.pot 3) ∧ p.files.get? "polymlp.yaml.1" = some (.pot 2) ∧
      p.files.get? "polymlp.yaml.2" = some (.pot 1) := by
  refine ⟨(convert extK { optK with developer := some [] } ["old", "new"] ⟨none, []⟩).1,
    (convert extK { optK with author := "X" } ["other"] (convert extK { optK with developer := some [] } ["old", "new"] ⟨none, []⟩).1).1,
    (((convert extK { optK with author := "X" } ["other"] (convert extK { optK with developer := some [] } ["old", "new"] ⟨none, []⟩).1).1).projects.get? (Spec.kimName "X" 2026 1 ["Mg", "O"] 3 0 0)).get (by decide +kernel), ?_⟩
  refine ⟨?_, ?_, ?_, ?_, ?_, ?_⟩
  · exact pair_error _ _ (by decide +kernel)
  · exact pair_ok _ (by decide +kernel)
  · simp
  · decide +kernel
  · decide +kernel
  · decide +kernel

/-- **C115, counterexample.** Two potentials for the same elements have models of the same name: the second one is put into the
directory of the first, whose potential remains the one that is used, although the conversion succeeds. -/
theorem C115_same_name_violation :
    ∃ (w1 w2 : World ℕ) (p : Project ℕ), convert extK {} ["new"] ⟨none, []⟩ = (w1, .ok ()) ∧
      convert extK {} ["other"] w1 = (w2, .ok ()) ∧ w2.projects = [(Spec.kimName "Seko" 2026 1 ["Mg", "O"] 1 0 0, p)] ∧
      p.files.get? "polymlp.yaml" = some (.pot 2) := by
  refine ⟨(convert extK {} ["new"] ⟨none, []⟩).1, (convert extK {} ["other"] (convert extK {} ["new"] ⟨none, []⟩).1).1,
    ((convert extK {} ["other"] (convert extK {} ["new"] ⟨none, []⟩).1).1.projects.get?
      (Spec.kimName "Seko" 2026 1 ["Mg", "O"] 1 0 0)).get (by decide +kernel), pair_ok _ (by decide +kernel), pair_ok _ (by decide +kernel), ?_, ?_⟩
  · decide +kernel
  · decide +kernel

/-- **C115, counterexample.** A third one is refused, and its potential remains in the temporary directory. -/
theorem C115_third_violation :
    ∃ w1 w2 w3 : World ℕ, convert extK {} ["new"] ⟨none, []⟩ = (w1, .ok ()) ∧ convert extK {} ["other"] w1 = (w2, .ok ()) ∧
      convert extK {} ["new"] w2 = (w3, .error .runtimeError) ∧ w3.tmp.isSome := by
  refine ⟨(convert extK {} ["new"] ⟨none, []⟩).1, (convert extK {} ["other"] (convert extK {} ["new"] ⟨none, []⟩).1).1,
    (convert extK {} ["new"] (convert extK {} ["other"] (convert extK {} ["new"] ⟨none, []⟩).1).1).1, pair_ok _ (by decide +kernel),
    pair_ok _ (by decide +kernel), pair_error _ _ (by decide +kernel), ?_⟩
  · decide +kernel

theorem texts_count (m : List (String × String)) : (Spec.ednTexts m).count Tok.lbrace = (Spec.ednTexts m).count Tok.rbrace := by
  unfold Spec.ednTexts
  have h : ∀ t : Tok, (∀ s, t ≠ Tok.str s) → (m.flatMap fun e => [Tok.str e.1, Tok.str e.2]).count t = 0 := by
    intro t ht
    rw [List.count_eq_zero]
    intro hm
    obtain ⟨e, _, he⟩ := List.mem_flatMap.1 hm
    simp only [List.mem_cons, List.not_mem_nil, or_false] at he
    rcases he with rfl | rfl
    · exact ht _ rfl
    · exact ht _ rfl
  rw [List.count_append, List.count_append, List.count_append, List.count_append, h _ (by simp), h _ (by simp)]
  decide

theorem value_count (v : Spec.EdnValue) : v.tokens.count Tok.lbrace = v.tokens.count Tok.rbrace := by
  cases v with
  | text s => simp [Spec.EdnValue.tokens]
  | texts l =>
    have h : ∀ t : Tok, (∀ s, t ≠ Tok.str s) → (l.map Tok.str).count t = 0 := by
      intro t ht
      rw [List.count_eq_zero]
      intro hm
      obtain ⟨e, _, he⟩ := List.mem_map.1 hm
      exact ht _ he.symm
    unfold Spec.EdnValue.tokens
    rw [List.count_append, List.count_append, List.count_append, List.count_append, h _ (by simp), h _ (by simp)]
    decide
  | maps l =>
    unfold Spec.EdnValue.tokens
    have h : (l.flatMap Spec.ednTexts).count Tok.lbrace = (l.flatMap Spec.ednTexts).count Tok.rbrace := by
      induction l with
      | nil => rfl
      | cons m l ih => rw [List.flatMap_cons, List.count_append, List.count_append, texts_count, ih]
    rw [List.count_append, List.count_append, List.count_append, List.count_append, h]
    rfl

theorem map_count (es : List (String × Spec.EdnValue)) : (Spec.ednMap es).count Tok.lbrace = (Spec.ednMap es).count Tok.rbrace := by
  unfold Spec.ednMap
  have h : (es.flatMap fun e => Tok.str e.1 :: e.2.tokens).count Tok.lbrace =
      (es.flatMap fun e => Tok.str e.1 :: e.2.tokens).count Tok.rbrace := by
    induction es with
    | nil => rfl
    | cons e es ih =>
      rw [List.flatMap_cons, List.count_append, List.count_append, ih]
      congr 1
      simp [value_count]
  rw [List.count_append, List.count_append, List.count_append, List.count_append, h]
  simp [Nat.add_comm]

/-- **C115, counterexample.** A citation with one key leaves the description unclosed: it is not a map. -/
theorem C115_citation_violation :
    ∃ (w : World ℕ) (p : Project ℕ) (t : List Tok),
      convert extK { citations := some [[("title", "T")]] } ["new"] ⟨none, []⟩ = (w, .ok ()) ∧
      w.projects.get? (Spec.kimName "Seko" 2026 1 ["Mg", "O"] 1 0 0) = some p ∧ p.files.get? "kimspec.edn" = some (.spec t) ∧
      ∀ es, t ≠ Spec.ednMap es := by
  have h : ∃ t, (((convert extK { citations := some [[("title", "T")]] } ["new"] ⟨none, []⟩).1.projects.get?
      (Spec.kimName "Seko" 2026 1 ["Mg", "O"] 1 0 0)).bind fun p => p.files.get? "kimspec.edn") = some (File.spec t) ∧
      t.count Tok.lbrace ≠ t.count Tok.rbrace :=
    ⟨specHead { citations := some [[("title", "T")]] } (descriptionOf { citations := some [[("title", "T")]] } ["Mg", "O"]) ++ [] ++
      specTail { citations := some [[("title", "T")]] } (projectName { citations := some [[("title", "T")]] } ["Mg", "O"] false)
        ["Mg", "O"], by decide +kernel, by decide +kernel⟩
  obtain ⟨t, h1, h2⟩ := h
  obtain ⟨p, hp, hs⟩ := Option.bind_eq_some_iff.1 h1
  refine ⟨_, p, t, pair_ok _ (by decide +kernel), hp, hs, ?_⟩
  rintro es rfl
  exact h2 (map_count es)

/-- **C115, counterexample.** Without a file there is an exception that does not tell so, and an empty temporary directory is
left. -/
theorem C115_no_files_violation (ext : Ext P) (o : Options) (w : World P) (hw : w.tmp = none) :
    convert ext o [] w = ({ w with tmp := some [] }, .error .nameError) := by
  unfold convert
  rw [hw]
  rfl

end Verif.Kim
