import Verif.Model.CalcApi
import Verif.Spec.DevApi

/-!
# Specification of the object for calculating properties
-/

namespace Verif.Spec

open CalcApi

variable {St V R A : Type}

/-- `vs` are the potential's values of the structures `ss`, in their order. -/
def ValuesOf (pot : St → Except Err V) (ss : List St) (vs : List V) : Prop :=
  List.Forall₂ (fun s v => pot s = .ok v) ss vs

/-- `e` is the exception of the first structure of `ss` that the potential cannot evaluate. -/
def FailsWith (pot : St → Except Err V) (ss : List St) (e : Err) : Prop :=
  ∃ pre s post, ss = pre ++ s :: post ∧ (∀ x ∈ pre, ∃ v, pot x = .ok v) ∧ pot s = .error e

/-- What a calculation gives with a potential: whatever was evaluated before it plays no role. -/
inductive Gives {R : Type} (pot : St → Except Err V) : Prog St V R → Except Err R → Prop where
  | ret (r) : Gives pot (.ret r) r
  | ask {ss vs k r} : ValuesOf pot ss vs → Gives pot (k vs) r → Gives pot (.ask ss k) r
  | fail {ss k e} : FailsWith pot ss e → Gives pot (.ask ss k) (.error e)

/-- The structures that a call gives, if it gives any. -/
def givenBy : Call St A → Option (List St)
  | .load (.ok l) => some l
  | .load (.error _) => none
  | .eval s => s
  | .features s => s
  | .job _ s _ => s
  | .phononInit s _ => s
  | .phonon _ => none
  | .optInit s _ => s
  | .opt _ => none

/-- `u` is the cell of a call: the first structure given, or else the first one that is set; None without structures. -/
def CellOf (c : Calc St V R A) (s : Option (List St)) (u : Option St) : Prop :=
  match s, c.structures with
  | some l, _ => ∃ x, l.head? = some x ∧ u = some x
  | none, some l => ∃ x, l.head? = some x ∧ u = some x
  | none, none => u = none

/-- The call `x` makes a new calculation of a kind, with the result `b` (none if it fails). -/
def Makes (ext : Ext St V R A) (k : Kind) (c : Calc St V R A) (x : Call St A) (b : Option R) : Prop :=
  ∃ s a u, x = .job k s a ∧ CellOf c s u ∧ ext.jobInit k u a = .ok () ∧
    ((∃ r, Gives ext.pot (ext.job k u a) (.ok r) ∧ b = some r) ∨
      ∃ e, Gives ext.pot (ext.job k u a) (.error e) ∧ b = none)

/-- The call `x` makes `l` the structures: it gives them, or they are the final one of an optimization. -/
def SetsStructures (ext : Ext St V R A) (c : Calc St V R A) (x : Call St A) (l : List St) : Prop :=
  givenBy x = some l ∨
    ∃ a u a0 as old o, x = .opt a ∧ c.opt = some (u, a0, as, old) ∧
      Gives ext.pot (ext.opt u a0 (as ++ [a])) (.ok o) ∧ l = [o.final]

/-- The arguments of the optimizations in a history. -/
def optArgs : List (Call St A) → List A
  | [] => []
  | .opt a :: cs => a :: optArgs cs
  | _ :: cs => optArgs cs

end Verif.Spec
