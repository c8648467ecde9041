import Verif.Model.DevCli
import Verif.Spec.DevApi

/-!
# Specification of the command line for developing potentials
-/

namespace Verif.Spec

open DevApi

/-- A component for data of a type: no forces for electronic data, stresses only for vasp and sscha, spins only for vasp. -/
def ForType {σ : Type} (t : DType) (s : Single σ) : Single σ :=
  ⟨s.spec, s.force && t != .electron, s.stress && (t == .vasp || t == .sscha), s.dtype, if t = .vasp then s.spins else none⟩

/-- The longest nonempty list of spins among components, the first of them. -/
def LongestSpins {σ : Type} (l : List (Single σ)) (o : Option (List Bool)) : Prop :=
  (o = none ∧ ∀ s ∈ l, s.spins = none ∨ s.spins = some []) ∨
    ∃ pre s post t, l = pre ++ s :: post ∧ s.spins = some t ∧ t ≠ [] ∧ o = some t ∧
      (∀ p ∈ pre, ∀ t', p.spins = some t' → t'.length < t.length) ∧
      ∀ p ∈ post, ∀ t', p.spins = some t' → t'.length ≤ t.length

variable {σ D S F E T : Type}

/-- The parameters `v` that components `l` of input files make: they fit together, and each is used for the type of data of
the first. -/
def ParamsOf (ext : Ext σ D S F E) (l : List (Single σ)) (v : View σ) : Prop :=
  ∃ s, l.head? = some s ∧ (l.length ≠ 1 → ext.consistent l = true) ∧ v.parts = l.map (ForType s.dtype) ∧
    (l = [s] → v.common = ForType s.dtype s) ∧
    (l.length ≠ 1 → ∃ o, LongestSpins l o ∧
      v.common = ForType s.dtype ⟨ext.mergeSpec (l.map fun p => p.spec), s.force, s.stress, s.dtype, o⟩)

/-- The parameters and the training and test data of the input files. -/
def Prepared (ext : DevCli.CliExt σ D S F E T) (a : DevCli.Args) (v : View σ) (tr te : D) : Prop :=
  ∃ l s, ext.parse a.infile = .ok (l, s) ∧ ParamsOf ext.api l v ∧ ext.api.load v s = .ok (tr, te)

/-- The regression that is asked for and the coefficients that it gives. -/
def Fitted (ext : DevCli.CliExt σ D S F E T) (a : DevCli.Args) (v : View σ) (tr te : D) (f : Fit) (b : List (List ℚ)) : Prop :=
  ext.api.regress (if a.cg = true then .cg else .sequential) v tr te = .ok f ∧ IsScaled f v.parts.length b

/-- What a file has to contain. -/
def FileOf (ext : DevCli.CliExt σ D S F E T) (a : DevCli.Args) : DevCli.Name → DevCli.Content σ E T → Prop
  | .params none, c => ∃ v tr te p t, Prepared ext a v tr te ∧ v.parts = [p] ∧ ext.describe p = .ok t ∧ c = .params t
  | .params (some i), c => ∃ v tr te p t, Prepared ext a v tr te ∧ v.parts.length ≠ 1 ∧ 1 ≤ i ∧ v.parts[i - 1]? = some p ∧
      ext.describe p = .ok t ∧ c = .params t
  | .curve, c => a.learningCurve = true ∧ ∃ v tr te log, Prepared ext a v tr te ∧ ext.api.curve v tr te = .ok log ∧
      c = .curve log
  | .mlp none, c => ∃ v tr te p f b, Prepared ext a v tr te ∧ v.parts = [p] ∧ Fitted ext a v tr te f b ∧
      c = .mlp p f.coeffs f.scales
  | .mlp (some i), c => ∃ v tr te p f b cum lo hi, Prepared ext a v tr te ∧ v.parts.length ≠ 1 ∧ 1 ≤ i ∧
      v.parts[i - 1]? = some p ∧ Fitted ext a v tr te f b ∧ f.cumulative = some cum ∧
      (i = 1 ∧ lo = 0 ∨ 1 < i ∧ cum[i - 2]? = some lo) ∧ cum[i - 1]? = some hi ∧
      c = .mlp p ((f.coeffs.take hi).drop lo) ((f.scales.take hi).drop lo)
  | .errors, c => ∃ v tr te f b e1 e2, Prepared ext a v tr te ∧ Fitted ext a v tr te f b ∧
      ext.api.errors v b tr = .ok e1 ∧ ext.api.errors v b te = .ok e2 ∧ c = .errors e1 e2

/-- The input files are read and the features of all components can be listed. -/
def Started (ext : DevCli.CliExt σ D S F E T) (a : DevCli.Args) : Prop :=
  ∃ v tr te, Prepared ext a v tr te ∧ ∀ p ∈ v.parts, ∃ t, ext.describe p = .ok t

/-- A file whose turn comes. -/
def TurnOf (ext : DevCli.CliExt σ D S F E T) (a : DevCli.Args) : DevCli.Name → Prop
  | .params none => True
  | .params (some i) => ∀ j, 1 ≤ j → j < i → ∃ c, FileOf ext a (.params (some j)) c
  | .curve => Started ext a
  | .mlp _ => Started ext a ∧ (a.learningCurve = true → ∃ c, FileOf ext a .curve c)
  | .errors => Started ext a ∧ (a.learningCurve = true → ∃ c, FileOf ext a .curve c) ∧
      ∃ o c, FileOf ext a (.mlp o) c

end Verif.Spec
