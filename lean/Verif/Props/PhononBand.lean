import Verif.Model.PhononBand
import Verif.Spec.PhononBand

/-!
# C129: phonon bands use the files and the path that were asked for
-/

namespace Verif.PhononBand

open Verif Verif.Spec

variable {S B K : Type}

/-- **C129.** With a path, a completed run is a run of Phonopy on the loaded cells along that path, with Born charges
exactly when the file of the given name exists.  Partial: the name has to be `BORN`. -/
theorem C129_born_partial (E : Engine S B K) (born : String → Option B) (yamlfile filefc2 type : String) (npoints : ℕ)
    (rows : List (List K)) (h : phononBands E born yamlfile filefc2 "BORN" type npoints = .ok rows) :
    ∃ a s path d f, bandAttrs type = .ok a ∧ E.load yamlfile filefc2 = .ok s ∧ a.path = some path ∧
      E.bands s a.primitive (born "BORN") path npoints a.labels = .ok (d, f) ∧ rows = datLines d f := by
  unfold phononBands at h
  cases ha : bandAttrs type with
  | error e => rw [ha] at h; cases h
  | ok a =>
    rw [ha] at h
    cases hs : E.load yamlfile filefc2 with
    | error e => rw [hs] at h; cases h
    | ok s =>
      rw [hs] at h
      have hn : nacOf born "BORN" = Except.ok (born "BORN") := by
        unfold nacOf
        cases born "BORN" <;> rfl
      change (nacOf born "BORN" >>= _) = _ at h
      rw [hn] at h
      cases hp : a.path with
      | none =>
        change (orErr Err.typeError a.path >>= _) = _ at h
        rw [hp] at h; cases h
      | some path =>
        change (orErr Err.typeError a.path >>= _) = _ at h
        rw [hp] at h
        change (E.bands s a.primitive (born "BORN") path npoints a.labels >>= _) = _ at h
        cases hb : E.bands s a.primitive (born "BORN") path npoints a.labels with
        | error e => rw [hb] at h; cases h
        | ok r =>
          rw [hb] at h
          injection h with h
          exact ⟨a, s, path, r.1, r.2, rfl, rfl, hp, hb, h.symm⟩

/-- **C129.** Without a file of the given name there is no correction, whatever other files exist. -/
theorem C129_no_born (E : Engine S B K) (born : String → Option B) (yamlfile filefc2 fileborn type : String)
    (npoints : ℕ) (h : born fileborn = none) :
    phononBands E born yamlfile filefc2 fileborn type npoints
      = phononBands E (fun _ => none) yamlfile filefc2 "BORN" type npoints := by
  have : nacOf born fileborn = nacOf (fun _ => none) "BORN" := by
    simp [nacOf, h]
  unfold phononBands
  rw [this]

/-- **C129 (violated).** The content of the file with the given name is never used: when a file of that name exists,
every other content of it gives the same result. -/
theorem C129_born_name_violation (E : Engine S B K) (born born' : String → Option B)
    (yamlfile filefc2 fileborn type : String) (npoints : ℕ) (hf : fileborn ≠ "BORN")
    (h : (born fileborn).isSome) (h' : (born' fileborn).isSome) (hr : ∀ n, n ≠ fileborn → born n = born' n) :
    phononBands E born yamlfile filefc2 fileborn type npoints
      = phononBands E born' yamlfile filefc2 fileborn type npoints := by
  have : nacOf born fileborn = nacOf born' fileborn := by
    unfold nacOf
    rw [if_pos h, if_pos h', hr "BORN" (Ne.symm hf)]
  unfold phononBands
  rw [this]

/-- **C129 (violated).** A file of another name makes the run fail when there is no file `BORN`. -/
theorem C129_born_missing_violation (E : Engine S B K) (born : String → Option B)
    (yamlfile filefc2 fileborn type : String) (npoints : ℕ) (h : (born fileborn).isSome) (hb : born "BORN" = none) :
    ∃ e, phononBands E born yamlfile filefc2 fileborn type npoints = .error e := by
  unfold phononBands
  cases bandAttrs type with
  | error e => exact ⟨e, rfl⟩
  | ok a =>
    cases hs : E.load yamlfile filefc2 with
    | error e => exact ⟨e, rfl⟩
    | ok s =>
      refine ⟨.runtimeError, ?_⟩
      have : nacOf born fileborn = .error .runtimeError := by
        unfold nacOf
        rw [if_pos h, hb]
        rfl
      change (nacOf born fileborn >>= _) = _
      rw [this]
      rfl

/-- **C129 (violated).** The documented structure type `hcp` always fails. -/
theorem C129_hcp_violation (E : Engine S B K) (born : String → Option B) (yamlfile filefc2 fileborn : String)
    (npoints : ℕ) : ∃ e, phononBands E born yamlfile filefc2 fileborn "hcp" npoints = .error e := by
  unfold phononBands
  rw [show bandAttrs "hcp" = .ok bandHcp from rfl]
  cases hs : E.load yamlfile filefc2 with
  | error e => exact ⟨e, rfl⟩
  | ok s =>
    cases hn : nacOf born fileborn with
    | error e => exact ⟨e, rfl⟩
    | ok n => exact ⟨.typeError, rfl⟩

/-- **C129.** A structure type that is not one of the six is refused before anything is read. -/
theorem C129_unknown (E : Engine S B K) (born : String → Option B) (yamlfile filefc2 fileborn type : String)
    (npoints : ℕ) (h : type ∉ ["bcc", "fcc", "hcp", "rocksalt", "perovskite", "perovskite2"]) :
    phononBands E born yamlfile filefc2 fileborn type npoints = .error .runtimeError := by
  simp only [List.mem_cons, List.not_mem_nil, or_false, not_or] at h
  obtain ⟨h1, h2, h3, h4, h5, h6⟩ := h
  unfold phononBands bandAttrs
  rw [if_neg h1, if_neg h2, if_neg h3, if_neg h4, if_neg h5, if_neg h6]
  rfl

lemma datLines_length (ds : List (List K)) (fs : List (List (List K)))
    (h : List.Forall₂ (fun d f => d.length = f.length) ds fs) :
    (datLines ds fs).length = (ds.map List.length).sum := by
  induction h with
  | nil => rfl
  | cons e _ ih =>
    unfold datLines at ih ⊢
    simp only [List.zip_cons_cons, List.flatMap_cons, List.length_append, List.length_map, List.length_zip, ih,
      List.map_cons, List.sum_cons, e, Nat.min_self]

/-- **C129.** The written table has a line for every point of every segment, in their order: the distance followed by
the frequencies of that point. -/
theorem C129_table (ds₁ ds₂ : List (List K)) (fs₁ fs₂ : List (List (List K))) (d : List K) (f : List (List K))
    (h₁ : List.Forall₂ (fun d f => d.length = f.length) ds₁ fs₁)
    (h₂ : List.Forall₂ (fun d f => d.length = f.length) ds₂ fs₂) (hd : d.length = f.length) :
    (datLines (ds₁ ++ d :: ds₂) (fs₁ ++ f :: fs₂)).length = ((ds₁ ++ d :: ds₂).map List.length).sum ∧
      ∀ i (hi : i < d.length), (datLines (ds₁ ++ d :: ds₂) (fs₁ ++ f :: fs₂))[(ds₁.map List.length).sum + i]?
        = some (d[i] :: f[i]'(hd ▸ hi)) := by
  refine ⟨datLines_length _ _ (List.rel_append h₁ (.cons hd h₂)), fun i hi => ?_⟩
  have hs : datLines (ds₁ ++ d :: ds₂) (fs₁ ++ f :: fs₂)
      = datLines ds₁ fs₁ ++ ((d.zip f).map (fun p => p.1 :: p.2) ++ datLines ds₂ fs₂) := by
    unfold datLines
    rw [List.zip_append h₁.length_eq, List.flatMap_append, List.zip_cons_cons, List.flatMap_cons]
  rw [hs, ← datLines_length _ _ h₁, List.getElem?_append_right (by omega), Nat.add_sub_cancel_left,
    List.getElem?_append_left (by simp; omega)]
  simp [hi, hd ▸ hi]

/-- **C129.** For body-centred cubic cells every point of the path carries its name. -/
theorem C129_bcc_labels : ∃ m path labels, bandAttrs "bcc" = .ok ⟨some m, some path, some labels⟩ ∧
    NamesPoints bccPoint m path labels := by
  refine ⟨_, _, _, rfl, ?_⟩
  refine .cons ⟨(0, 0, 0), by decide +kernel, ?_⟩ (.cons ⟨(0, 1, 0), by decide +kernel, ?_⟩
    (.cons ⟨(1/2, 1/2, 1/2), by decide +kernel, ?_⟩ (.cons ⟨(0, 0, 0), by decide +kernel, ?_⟩
      (.cons ⟨(1/2, 1/2, 0), by decide +kernel, ?_⟩ .nil)))) <;>
  · unfold SameUpToLattice; decide +kernel

/-- **C129 (violated).** For the other types with a path there are fewer labels than points, so no assignment of
names to points makes them agree. -/
theorem C129_labels_violation (type : String) (ht : type ∈ ["fcc", "rocksalt", "perovskite", "perovskite2"]) :
    ∃ m path labels, bandAttrs type = .ok ⟨some m, some path, some labels⟩ ∧
      ∀ point, ¬ NamesPoints point m path labels := by
  simp only [List.mem_cons, List.not_mem_nil, or_false] at ht
  rcases ht with rfl | rfl | rfl | rfl <;>
  exact ⟨_, _, _, rfl, fun point h => by have := h.length_eq; revert this; decide +kernel⟩

/-- Phonopy of the examples: it shows the Born charges it got. -/
def exEngine : Engine Unit ℕ ℕ :=
  ⟨fun _ _ => .ok (), fun _ _ b _ _ _ => .ok ([[0, 1]], [[[b.getD 0, 2], [3, 4]]])⟩

/-- A run that completes. -/
example : phononBands exEngine (fun n => if n = "BORN" then some 7 else none) "y" "f" "BORN" "bcc" 2
    = .ok [[0, 7, 2], [1, 3, 4]] := by decide +kernel

/-- A caller who names another file gets the charges of `BORN`. -/
example : phononBands exEngine (fun n => if n = "BORN" then some 7 else if n = "mine" then some 9 else none) "y" "f"
    "mine" "bcc" 2 = .ok [[0, 7, 2], [1, 3, 4]] := by decide +kernel

end Verif.PhononBand
