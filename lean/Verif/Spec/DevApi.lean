import Verif.Model.DevApi

/-!
# Notions for the object for developing potentials
-/

namespace Verif.Spec

open Verif.DevApi

/-- Data of this kind leave forces in use: they have forces for training and test, and are not electronic data. -/
def KeepsForce {S : Type} : Source S → Bool
  | .files .electron _ => false
  | .files _ _ => true
  | .structures trainForces _ testForces _ _ => trainForces && testForces
  | .displacements _ _ => true

/-- Data of this kind leave stresses in use. -/
def KeepsStress {S : Type} : Source S → Bool
  | .files .electron _ => false
  | .files .phono3py _ => false
  | .files .openmx _ => false
  | .files _ _ => true
  | .structures trainForces trainStresses testForces testStresses _ =>
      trainForces && trainStresses && testForces && testStresses
  | .displacements _ _ => false

/-- A call that works with the parameters that are set, i.e. that neither sets, appends nor loads parameters. -/
def SameParams {σ S F : Type} : Call σ S F → Prop
  | .setData _ => True
  | .fit _ => True
  | .run _ => True
  | .estimate => True
  | .curve => True
  | _ => False

/-- The data that are set by the calls of a history. -/
def sources {σ S F : Type} : List (Call σ S F) → List (Source S)
  | [] => []
  | .setData s :: cs => s :: sources cs
  | _ :: cs => sources cs

/-- A call with parameters of its own: no component objects of the caller. -/
def OwnParams {σ S F : Type} : Call σ S F → Prop
  | .setShared _ => False
  | _ => True

/-- A call that neither changes the potential nor appends a component to parameters. -/
def KeepsPotential {σ S F : Type} : Call σ S F → Prop
  | .setParams _ => True
  | .paramFile _ _ => True
  | .setData _ => True
  | .estimate => True
  | .curve => True
  | _ => False

/-- The parameter objects that an object uses: those that are set and those of its potential. -/
def Uses {D E : Type} (o : Obj D E) (k : ℕ) : Prop := o.params = some k ∨ ∃ m, o.model = some m ∧ m.params = k

/-- The reported coefficients of a regression for `n` components: coefficients divided by scales, and for hybrid models
one list for each component, `cumulative` being the numbers of features up to and including each component. -/
def IsScaled (f : Fit) (n : ℕ) (b : List (List ℚ)) : Prop :=
  match f.cumulative with
  | none => b = [List.zipWith (fun x y => x / y) f.coeffs f.scales]
  | some c => b.length = n ∧ ∀ i, i < n → ∃ lo hi, (i = 0 ∧ lo = 0 ∨ 0 < i ∧ c[i - 1]? = some lo) ∧ c[i]? = some hi ∧
      b[i]? = some (List.zipWith (fun x y => x / y) ((f.coeffs.take hi).drop lo) ((f.scales.take hi).drop lo))

/-- The regression of a call is complete: which coefficients it gives. -/
def Develops {σ D S F E : Type} (ext : Ext σ D S F E) (st : State σ D E) (c : Call σ S F) (b : List (List ℚ)) : Prop :=
  (∃ m r tr te f, (c = .fit m ∨ c = .run m) ∧ st.o.params = some r ∧ st.o.train = some tr ∧ st.o.test = some te ∧
    ext.regress m (view st.h r) tr te = .ok f ∧ IsScaled f (view st.h r).parts.length b) ∨
  (∃ p f x, c = .load p ∧ ext.read p = .ok (f, x) ∧ b = [x])

/-- The data of a call are made: which.  They are read with the parameters as the call leaves them. -/
def MakesData {σ D S F E : Type} (ext : Ext σ D S F E) (st : State σ D E) (c : Call σ S F) (d : D × D) : Prop :=
  (∃ src r, c = .setData src ∧ st.o.params = some r ∧ src.valid = true ∧
    ext.load (view (step ext st c).1.h r) src.data = .ok d) ∨
  (∃ l s r, c = .paramFile l s ∧ (step ext st c).1.o.params = some r ∧ (step ext st c).2 = .ok () ∧
    ext.load (view (step ext st c).1.h r) s = .ok d)

/-- `b` is what the last element of a list gives that gives something (`P`) in the state in which it is used; `after pre`
is the state after the first elements `pre`. -/
def LastOf {α τ β : Type} (after : List α → τ) (P : τ → α → β → Prop) (l : List α) (b : β) : Prop :=
  ∃ pre x post, l = pre ++ x :: post ∧ P (after pre) x b ∧
    ∀ q y t, post = q ++ y :: t → ∀ b', ¬ P (after (pre ++ x :: q)) y b'

end Verif.Spec
