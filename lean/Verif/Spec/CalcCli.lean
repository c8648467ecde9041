import Verif.Model.CalcCli
import Verif.Spec.CalcApi

/-!
# Specification of the command line for calculating properties
-/

namespace Verif.Spec

open CalcApi CalcCli

/-- The calculations that can be asked for. -/
inductive Mode where
  | properties | geometry | eos | elastic | forceConstants | phonon | features
  deriving DecidableEq

/-- The calculation that writes a file. -/
def modeOf : Name → Mode
  | .properties => .properties
  | .relaxed => .geometry
  | .poscar _ => .geometry
  | .eos => .eos
  | .elastic => .elastic
  | .fc => .forceConstants
  | .phonon => .phonon
  | .qha => .phonon
  | .features => .features
  | .precision => .features

/-- Their order. -/
def rank : Mode → ℕ
  | .properties => 0
  | .geometry => 1
  | .eos => 2
  | .elastic => 3
  | .forceConstants => 4
  | .phonon => 5
  | .features => 6

/-- What is asked for. -/
def Asked (a : Args) : Mode → Prop
  | .properties => a.properties = true
  | .geometry => a.geometry = true
  | .eos => a.eos = true
  | .elastic => a.elastic = true
  | .forceConstants => a.forceConstants = true
  | .phonon => a.phonon = true
  | .features => a.features = true ∨ a.precision = true

variable {St V R : Type}

/-- The structures of calculations for one cell: of `--poscar`, or else of `--poscars`. -/
def GivenCell (ext : CliExt St V R) (a : Args) (l : List St) : Prop :=
  (∃ f s, a.poscar = some f ∧ ext.poscar f = .ok s ∧ l = [s]) ∨
    (a.poscar = none ∧ ∃ fs, a.poscars = some fs ∧ List.Forall₂ (fun f s => ext.poscar f = .ok s) fs l)

/-- The structures of calculations for many cells: of `--poscars`, or else of `--poscar`, or else of `--vaspruns`. -/
def GivenCells (ext : CliExt St V R) (a : Args) (l : List St) : Prop :=
  (∃ fs, a.poscars = some fs ∧ List.Forall₂ (fun f s => ext.poscar f = .ok s) fs l) ∨
    (a.poscars = none ∧ ∃ f s, a.poscar = some f ∧ ext.poscar f = .ok s ∧ l = [s]) ∨
    (a.poscars = none ∧ a.poscar = none ∧ ∃ fs, a.vaspruns = some fs ∧
      List.Forall₂ (fun f s => ext.vasprun f = .ok s) fs l)

/-- There is something to optimize in `u`, and `v` is the result. -/
def OptimizedTo (e : Ext St V R Arg) (arg method : Arg) (u v : St) : Prop :=
  Gives e.pot (e.optInit (some u) arg) (.ok ()) ∧ ∃ o, Gives e.pot (e.opt (some u) arg [method]) (.ok o) ∧ v = o.final

/-- There is nothing to optimize in `u`. -/
def NothingToOptimize (e : Ext St V R Arg) (arg : Arg) (u : St) : Prop :=
  Gives e.pot (e.optInit (some u) arg) (.error .valueError)

/-- The options of an optimization: symmetry unless it is switched off, the cell, its volume and the atoms unless they are fixed. -/
def optOptions (a : Args) : Arg :=
  .relax (!a.noSymmetry) (!a.fixCell) (!a.fixCell && !a.fixVolume) (!a.fixAtom) a.pressure

/-- What a file has to contain. -/
def Right (ext : CliExt St V R) (a : Args) : Name → Content St V R → Prop
  | .properties, c => a.properties = true ∧ a.pot ≠ none ∧
      ∃ l vs, GivenCells ext a l ∧ ValuesOf (ext.api a.pot a.infile).pot l vs ∧ c = .values l vs
  | .relaxed, c => a.geometry = true ∧ ∃ l u v, GivenCell ext a l ∧ l.head? = some u ∧ c = .structure_ v ∧
      (OptimizedTo (ext.api a.pot a.infile) (optOptions a) (.minimize a.method a.gtol) u v ∨
        NothingToOptimize (ext.api a.pot a.infile) (optOptions a) u ∧ l = [u] ∧ v = u)
  | .poscar i, c => a.geometry = true ∧ ∃ l u v, GivenCell ext a l ∧ l.head? = some u ∧ c = .structure_ v ∧
      NothingToOptimize (ext.api a.pot a.infile) (optOptions a) u ∧ l.length ≠ 1 ∧ l[i]? = some v
  | .eos, c => a.eos = true ∧ ∃ l u r, GivenCell ext a l ∧ l.head? = some u ∧ c = .result r ∧
      (ext.api a.pot a.infile).jobInit .eos (some u) (.eos 0.7 2 0.03 true true) = .ok () ∧
      Gives (ext.api a.pot a.infile).pot ((ext.api a.pot a.infile).job .eos (some u) (.eos 0.7 2 0.03 true true)) (.ok r)
  | .elastic, c => a.elastic = true ∧ ∃ l u r, GivenCell ext a l ∧ l.head? = some u ∧ c = .result r ∧
      (ext.api a.pot a.infile).jobInit .elastic (some u) .elastic = .ok () ∧
      Gives (ext.api a.pot a.infile).pot ((ext.api a.pot a.infile).job .elastic (some u) .elastic) (.ok r)
  | .fc, c => a.forceConstants = true ∧ ∃ l u v r, GivenCell ext a l ∧ l.head? = some u ∧ c = .result r ∧
      (a.geometry = false ∧ v = u ∨ a.geometry = true ∧
        (OptimizedTo (ext.api a.pot a.infile) (.relax true false false true 0) (.minimize "BFGS" 0.0001) u v ∨
          NothingToOptimize (ext.api a.pot a.infile) (.relax true false false true 0) u ∧ v = u)) ∧
      ext.fcInit (some v) (.fc a.supercell [(2, a.cutoff2), (3, a.cutoff3), (4, a.cutoff4)] a.fcSamples a.disp a.plusminus
        a.fcOrders a.batch a.gradientSolver) = .ok () ∧
      Gives (ext.api a.pot a.infile).pot (ext.fc (some v) (.fc a.supercell [(2, a.cutoff2), (3, a.cutoff3), (4, a.cutoff4)]
        a.fcSamples a.disp a.plusminus a.fcOrders a.batch a.gradientSolver)) (.ok r)
  | .phonon, c => a.phonon = true ∧ ∃ l u r, GivenCell ext a l ∧ l.head? = some u ∧ c = .result r ∧
      (ext.api a.pot a.infile).phononInit (some u) (.cell a.supercell) = .ok () ∧
      Gives (ext.api a.pot a.infile).pot ((ext.api a.pot a.infile).phonon (some u) (.cell a.supercell)
        (.phonon a.disp a.mesh a.tmin a.tmax a.tstep a.pdos)) (.ok r)
  | .qha, c => a.phonon = true ∧ ∃ l u r, GivenCell ext a l ∧ l.head? = some u ∧ c = .result r ∧
      (ext.api a.pot a.infile).jobInit .qha (some u)
        (.qha a.supercell a.disp a.mesh a.tmin a.tmax a.tstep 0.8 1.2 0.02) = .ok () ∧
      Gives (ext.api a.pot a.infile).pot ((ext.api a.pot a.infile).job .qha (some u)
        (.qha a.supercell a.disp a.mesh a.tmin a.tmax a.tstep 0.8 1.2 0.02)) (.ok r)
  | .features, c => a.features = true ∧ ∃ l r, GivenCells ext a l ∧ (ext.api a.pot a.infile).feat l = .ok r ∧ c = .result r
  | .precision, c => a.precision = true ∧ ∃ l r, GivenCells ext a l ∧ (ext.api a.pot a.infile).feat l = .ok r ∧
      c = .result (ext.precision r)

/-- A calculation that can be done: what it has to write exists. -/
def CanRun (ext : CliExt St V R) (a : Args) : Mode → Prop
  | .properties => ∃ c, Right ext a .properties c
  | .geometry => (∃ c, Right ext a .relaxed c) ∨ ∃ c, Right ext a (.poscar 0) c
  | .eos => ∃ c, Right ext a .eos c
  | .elastic => ∃ c, Right ext a .elastic c
  | .forceConstants => ∃ c, Right ext a .fc c
  | .phonon => (∃ c, Right ext a .phonon c) ∧ ∃ c, Right ext a .qha c
  | .features => (a.features = true → ∃ c, Right ext a .features c) ∧ (a.precision = true → ∃ c, Right ext a .precision c)

/-- A file whose turn comes: everything asked for before it can be done. -/
def Reached (ext : CliExt St V R) (a : Args) (n : Name) : Prop :=
  (∀ m, Asked a m → rank m < rank (modeOf n) → CanRun ext a m) ∧ (n = .qha → ∃ c, Right ext a .phonon c)

end Verif.Spec
