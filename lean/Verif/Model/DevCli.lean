import Verif.Model.DevApi

/-!
# The command line for developing potentials

`/repo/src/pypolymlp/api/run_polymlp.py` 14-103 as a program that calls the object of `Model/DevApi`.  What is written
is kept when an exception is raised.  Not modelled: the text that is printed, the files with predictions in
`./predictions` (`estimate_error(log_energy=True)`), `--batch_size`, `--gtol` and `--max_iter` as far as they have an
influence on the regression (it is an arbitrary function).
-/

namespace Verif.DevCli
open Verif.DevApi

/-- The options (`run_polymlp.py` 17-57). -/
structure Args where
  infile : List String := ["polymlp.in"]
  learningCurve : Bool := false
  cg : Bool := false

/-- The files that are written: `polymlp_params.yaml` or `polymlp_params<i>.yaml`; `polymlp_learning_curve.dat`;
`polymlp.yaml` or `polymlp.yaml.<i>`; `polymlp_error.yaml`. -/
inductive Name where
  | params (i : Option ℕ)
  | curve
  | mlp (i : Option ℕ)
  | errors
  deriving DecidableEq

/-- What is in a file: attributes of features, the learning curve, a component of the potential, prediction errors. -/
inductive Content (σ E T : Type) where
  | params (t : T)
  | curve (log : List (ℕ × E))
  | mlp (s : Single σ) (coeffs scales : List ℚ)
  | errors (train test : E)

/-- The code that is not modelled here: that of the object, reading of input files (`ParamsParser`, see C18, C36, C37) and
the attributes of features (`features_attr.py` 50-116). -/
structure CliExt (σ D S F E T : Type) where
  api : Ext σ D S F E
  parse : List String → Except Err (List (Single σ) × S)
  describe : Single σ → Except Err T

variable {σ D S F E T : Type}

/-- The object and the files by their names. -/
structure World (σ D E T : Type) where
  st : State σ D E
  files : Name → Option (Content σ E T)

/-- A part of the program; the world is kept when an exception is raised. -/
abbrev Act (σ D E T : Type) := World σ D E T → World σ D E T × Except Err Unit

/-- One part after another. -/
def andThen (a b : Act σ D E T) : Act σ D E T := fun w =>
  match a w with
  | (w, .error e) => (w, .error e)
  | (w, .ok _) => b w

/-- A part under a condition. -/
def when (c : Bool) (a : Act σ D E T) : Act σ D E T := fun w => if c then a w else (w, .ok ())

/-- A call of the object. -/
def call (ext : Ext σ D S F E) (x : Call σ S F) : Act σ D E T := fun w =>
  ({ w with st := (step ext w.st x).1 }, (step ext w.st x).2)

/-- Writing of files one after another, until one cannot be made; a file replaces an older one. -/
def puts : List (Name × Except Err (Content σ E T)) → Act σ D E T
  | [], w => (w, .ok ())
  | (n, .ok c) :: l, w => puts l { w with files := fun n' => if n' = n then some c else w.files n' }
  | (_, .error e) :: _, w => (w, .error e)

/-- The names of the files of `n` components (`features_attr.py` 125-133, `io_polymlp.py` 33-41). -/
def numbered (f : Option ℕ → Name) (n : ℕ) : List Name :=
  if n = 1 then [f none] else (List.range n).map fun (i : ℕ) => f (some (i + 1))

/-- `load_parameter_file` (`pypolymlp.py` 52-66). -/
def load (ext : CliExt σ D S F E T) (a : Args) : Act σ D E T := fun w =>
  match ext.parse a.infile with
  | .error e => (w, .error e)
  | .ok p => call ext.api (.paramFile p.1 p.2) w

/-- `save_params(filename="polymlp_params.yaml")` (`pypolymlp.py` 734-743, `features_attr.py` 119-134). -/
def saveParams (ext : CliExt σ D S F E T) : Act σ D E T := fun w =>
  match w.st.o.params with
  | none => (w, .error .runtimeError)
  | some r =>
    puts ((numbered .params (view w.st.h r).parts.length).zip
      ((view w.st.h r).parts.map fun p => (ext.describe p).map .params)) w

/-- `save_learning_curve` (`pypolymlp.py` 705-708); iterating over `None` raises TypeError. -/
def saveCurve : Act σ D E T := fun w =>
  match w.st.o.log with
  | none => (w, .error .typeError)
  | some l => puts [(.curve, .ok (.curve l))] w

/-- `save_mlp(filename="polymlp.yaml")` (`pypolymlp.py` 710-719, `io_polymlp.py` 25-51).  That the components are found
before the first file is written makes no difference, because they were found in the regression. -/
def savePotential : Act σ D E T := fun w =>
  match saveMlp w.st with
  | .error e => (w, .error e)
  | .ok l => puts ((numbered .mlp l.length).zip (l.map fun p => .ok (.mlp p.1 p.2.1 p.2.2))) w

/-- `save_errors(filename="polymlp_error.yaml")` (`pypolymlp.py` 745-756, `eval_accuracy.py` 271-303). -/
def saveErrorFile : Act σ D E T := fun w =>
  match saveErrors w.st with
  | .error e => (w, .error e)
  | .ok p => puts [(.errors, .ok (.errors p.1 p.2))] w

/-- `run` (`run_polymlp.py` 14-103). -/
def program (ext : CliExt σ D S F E T) (a : Args) : Act σ D E T :=
  andThen (load ext a)
    (andThen (saveParams ext)
      (andThen (when a.learningCurve (andThen (call ext.api .curve) saveCurve))
        (andThen (call ext.api (.fit (if a.cg then .cg else .sequential)))
          (andThen savePotential
            (andThen (call ext.api .estimate) saveErrorFile)))))

/-- The command on the files that are there, in a process with parameter objects `h` (a new process has none). -/
def run (ext : CliExt σ D S F E T) (a : Args) (h : Heap σ) (files : Name → Option (Content σ E T)) :
    World σ D E T × Except Err Unit :=
  program ext a ⟨⟨h, Obj.new⟩, files⟩

end Verif.DevCli
