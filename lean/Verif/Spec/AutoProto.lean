import Verif.Model.AutoProto
import Verif.Spec.CalcApi

/-!
# Specification of the automatic calculations for prototypes

Everything is stated with the potential and the calculations alone: the shared object that calculates, and what was
done with it before, does not occur.
-/

namespace Verif.Spec

open CalcApi AutoProto

variable {St V R A : Type}

/-- The optimization of a cell succeeds and ends with `o`. -/
def Relaxes (t : Tools St V R A) (s : St) (o : Opt St) : Prop :=
  Gives t.ext.pot (t.ext.optInit (some s) t.relax) (.ok ()) ∧
    Gives t.ext.pot (t.ext.opt (some s) t.relax [t.cg]) (.ok o) ∧ o.success = true

/-- There is nothing to optimize, or the optimization raises an exception, or it ends without success. -/
def NotRelaxed (t : Tools St V R A) (s : St) : Prop :=
  Gives t.ext.pot (t.ext.optInit (some s) t.relax) (.error .valueError) ∨
    Gives t.ext.pot (t.ext.optInit (some s) t.relax) (.ok ()) ∧
      ((∃ e, Gives t.ext.pot (t.ext.opt (some s) t.relax [t.cg]) (.error e)) ∨
        ∃ o, Gives t.ext.pot (t.ext.opt (some s) t.relax [t.cg]) (.ok o) ∧ o.success = false)

/-- The equation of state, or the elastic constants, of a cell. -/
def JobGives (t : Tools St V R A) (k : Kind) (s : St) (a : A) (r : Except Err R) : Prop :=
  (∃ e, t.ext.jobInit k (some s) a = .error e ∧ r = .error e) ∨
    t.ext.jobInit k (some s) a = .ok () ∧ Gives t.ext.pot (t.ext.job k (some s) a) r

/-- The phonons of a cell in a supercell. -/
def PhononGives (t : Tools St V R A) (s : St) (m : A) (r : Except Err R) : Prop :=
  (∃ e, t.ext.phononInit (some s) m = .error e ∧ r = .error e) ∨
    t.ext.phononInit (some s) m = .ok () ∧ Gives t.ext.pot (t.ext.phonon (some s) m t.distance) r

/-- The prototype with its equilibrium structure, energy and volume per atom. -/
def withOptimum (t : Tools St V R A) (p : Prototype St R A) (o : Opt St) : Prototype St R A :=
  { p with eq := some o.final, energy := some (o.energy / t.nAtoms o.final),
           volume := some (t.vol o.final / t.nAtoms o.final) }

/-- The prototype with energy, volume, bulk modulus and points of the equation of state; per atom, except for the bulk
modulus. -/
def withPoints (p : Prototype St R A) (e v b : ℚ) (points : List ℚ) : Prototype St R A :=
  { p with energyFit := some (e / p.nAtom), volumeFit := some (v / p.nAtom), bulk := some b,
           curve := some (points.map fun (x : ℚ) => x / p.nAtom) }

/-- The prototype with the fitted curve as well. -/
def withFit (p : Prototype St R A) (e v b : ℚ) (points fitted : List ℚ) : Prototype St R A :=
  { withPoints p e v b points with curveFit := some (fitted.map fun (x : ℚ) => x / p.nAtom) }

/-- All that is reported for a prototype whose optimization succeeds: equation of state of the optimum, elastic constants
and phonons of the optimum as it is read from its file. -/
def FullReport (t : Tools St V R A) (p p' : Prototype St R A) : Prop :=
  ∃ o r e v b l s er dr, Relaxes t p.cell o ∧ JobGives t .eos o.final t.eosArgs (.ok r) ∧
    t.eosOf r = ⟨some (e, v, b), (t.eosOf r).points, some l⟩ ∧ t.reread o.final = .ok s ∧
    JobGives t .elastic s t.elasticArgs (.ok er) ∧ PhononGives t s p.supercell (.ok dr) ∧
    p' = { withFit (withOptimum t p o) e v b (t.eosOf r).points l with elastic := some er, dos := some dr }

/-- The report of a prototype; it is left as it was if the optimization does not succeed. -/
def ReportOf (t : Tools St V R A) (p p' : Prototype St R A) : Prop :=
  FullReport t p p' ∨ NotRelaxed t p.cell ∧ p' = p

/-- The calculations for a prototype end with an exception, leaving it with what was obtained before. -/
inductive StopsWith (t : Tools St V R A) (p : Prototype St R A) : Prototype St R A → Err → Prop where
  | prepare (e) : e ≠ .valueError → Gives t.ext.pot (t.ext.optInit (some p.cell) t.relax) (.error e) → StopsWith t p p e
  | eos (o e) : Relaxes t p.cell o → JobGives t .eos o.final t.eosArgs (.error e) → StopsWith t p (withOptimum t p o) e
  | noFit (o r) : Relaxes t p.cell o → JobGives t .eos o.final t.eosArgs (.ok r) → (t.eosOf r).fit = none →
      StopsWith t p (withOptimum t p o) .typeError
  | noCurve (o r e v b) : Relaxes t p.cell o → JobGives t .eos o.final t.eosArgs (.ok r) →
      (t.eosOf r).fit = some (e, v, b) → (t.eosOf r).fitted = none →
      StopsWith t p (withPoints (withOptimum t p o) e v b (t.eosOf r).points) .typeError
  | file (o r e v b l err) : Relaxes t p.cell o → JobGives t .eos o.final t.eosArgs (.ok r) →
      (t.eosOf r).fit = some (e, v, b) → (t.eosOf r).fitted = some l → t.reread o.final = .error err →
      StopsWith t p (withFit (withOptimum t p o) e v b (t.eosOf r).points l) err
  | elastic (o r e v b l s err) : Relaxes t p.cell o → JobGives t .eos o.final t.eosArgs (.ok r) →
      (t.eosOf r).fit = some (e, v, b) → (t.eosOf r).fitted = some l → t.reread o.final = .ok s →
      JobGives t .elastic s t.elasticArgs (.error err) →
      StopsWith t p (withFit (withOptimum t p o) e v b (t.eosOf r).points l) err
  | phonon (o r e v b l s er err) : Relaxes t p.cell o → JobGives t .eos o.final t.eosArgs (.ok r) →
      (t.eosOf r).fit = some (e, v, b) → (t.eosOf r).fitted = some l → t.reread o.final = .ok s →
      JobGives t .elastic s t.elasticArgs (.ok er) → PhononGives t s p.supercell (.error err) →
      StopsWith t p { withFit (withOptimum t p o) e v b (t.eosOf r).points l with elastic := some er } err

/-- `s` is the last structure with the ID `i`. -/
def LastWithId (ids : List Id) (structures : List St) (i : Id) (s : St) : Prop :=
  ∃ k : ℕ, ids[k]? = some i ∧ structures[k]? = some s ∧ ∀ j : ℕ, k < j → ids[j]? = some i → structures[j]? = none

/-- The symbol of an element: letters, at least one. -/
def Symbol (a : List Char) : Prop := a ≠ [] ∧ ∀ ch ∈ a, ch.isAlpha = true

end Verif.Spec
