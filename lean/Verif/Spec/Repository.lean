import Verif.Model.Repository

/-!
# Specification of repository entries
-/

namespace Verif.Spec

open Repository

variable {C : Type}

/-- The files of a potential in a directory: those with names `polymlp.yaml...` if there are any, otherwise those with
names `polymlp.lammps...`. -/
def PotentialIn (fs : Fs C) (d : Dir) (n : List Char) : Prop :=
  (fs.get? (d, n)).isSome ∧ ("polymlp.yaml".toList <+: n ∨
    "polymlp.lammps".toList <+: n ∧ ∀ m, "polymlp.yaml".toList <+: m → fs.get? (d, m) = none)

/-- The directory of a potential can be copied: there are files of the potential, all of the present format or all of the
old one, and the files with costs and errors. -/
def CanCopy (ext : Ext C) (fs : Fs C) (path : List Char) : Prop :=
  (∃ n, PotentialIn fs (.src path) n) ∧
  (fs.get? (.src path, "polymlp_cost.yaml".toList)).isSome ∧ (fs.get? (.src path, "polymlp_error.yaml".toList)).isSome ∧
  ((∀ n c, PotentialIn fs (.src path) n → fs.get? (.src path, n) = some c → ext.legacy c = false) ∨
   (∀ n c, PotentialIn fs (.src path) n → fs.get? (.src path, n) = some c → ext.legacy c = true ∧ ∃ c', ext.conv c = .ok c'))

/-- `fs'` has in the entry of a potential its costs, its errors and its files: the same files in the present format; for
the old one the conversion of each of them, under one name for a single file and under numbered names otherwise. -/
def Copied (ext : Ext C) (fs fs' : Fs C) (path id : List Char) : Prop :=
  fs'.get? (.mlp id, "polymlp_cost.yaml".toList) = fs.get? (.src path, "polymlp_cost.yaml".toList) ∧
  fs'.get? (.mlp id, "polymlp_error.yaml".toList) = fs.get? (.src path, "polymlp_error.yaml".toList) ∧
  ∃ names : List (List Char), names.Nodup ∧ (∀ n, n ∈ names ↔ PotentialIn fs (.src path) n) ∧
    ∀ n c', n ≠ "polymlp_cost.yaml".toList → n ≠ "polymlp_error.yaml".toList →
      (fs'.get? (.mlp id, n) = some c' ↔ ∃ (i : ℕ) (name : List Char) (c : C), names[i]? = some name ∧
        fs.get? (.src path, name) = some c ∧
        (ext.legacy c = false ∧ n = name ∧ c' = c ∨
         ext.legacy c = true ∧ ext.conv c = .ok c' ∧
          n = if names.length = 1 then "polymlp.yaml".toList else "polymlp.yaml.".toList ++ (toString (i + 1)).toList))

end Verif.Spec
