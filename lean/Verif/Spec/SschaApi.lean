import Verif.Model.SschaApi
import Mathlib.LinearAlgebra.Matrix.Determinant.Basic
import Mathlib.Data.Fin.VecNotation

/-! # What is asked of parameters and sessions of SSCHA -/

namespace Verif.Spec
open Verif.SschaApi

variable {C F V P D : Type}

/-- A temperature as used: the given one, or an integer that differs by at most 1e-8 plus 1e-5 of it. -/
def UsedTemp (t t' : ℝ) : Prop := t' = t ∨ ((∃ k : ℤ, t' = k) ∧ |t - t'| ≤ 1e-8 + 1e-5 * |t'|)

/-- Temperatures in the order asked for. -/
def Ordered (ascending : Bool) (l : List ℝ) : Prop := if ascending then l.Pairwise (· < ·) else l.Pairwise (· > ·)

/-- The force constants that iterations start from if none are known. -/
inductive StartFc (ext : Ext C F V P D) (p : Params C F) (v : V) : F → Prop
  | harmonic (f : F) : p.algorithm = "harmonic" → ext.harmonic p v = .ok f → StartFc ext p v f
  | fixed : p.algorithm = "const" → StartFc ext p v (ext.fixed p)
  | random : p.algorithm = "random" → StartFc ext p v (ext.random p)
  | file (name : String) (f : F) : p.algorithm = "file" → p.fcFile = some name → ext.readFc name = .ok f → StartFc ext p v f

/-- The supercell matrix of an argument. -/
def MatrixArg : MatArg → Matrix (Fin 3) (Fin 3) ℤ → Prop
  | .diag a b c, M => M = !![a, 0, 0; 0, b, 0; 0, 0, c]
  | .full m, M => M = Matrix.of m

/-- The parameters of a calculation are those that were asked for; numbers of samples are not compared. -/
structure AsAsked (ext : Ext C F V P D) (c : C) (m : MatArg) (a : RunArgs) (p : Params C F) : Prop where
  cell : p.unitcell = c
  matrix : MatrixArg m (Matrix.of p.matrix)
  cells : p.nUnitcells = (Matrix.of p.matrix).det
  atoms : p.nAtom = ext.nElements c * (Matrix.of p.matrix).det
  temps : setTemperatures a.temps = .ok p.temperatures
  tol : p.tol = a.tol
  algorithm : p.algorithm = a.algorithm
  file : p.fcFile = a.fcFile
  cutoff : p.cutoff = a.cutoff

/-- The numbers of samples: those given, or derived from the size of the basis set and the number of atoms. -/
def Samples (a : RunArgs) (p : Params C F) (nBasis : ℕ) : Prop :=
  (a.nInit ≠ none → p.nInit = a.nInit ∧ p.nFinal = a.nFinal) ∧
  (a.nInit = none → ∃ k : ℤ, p.nInit = some k ∧ p.nFinal = some (3 * k) ∧
    |450 * (0.01 / p.tol) ^ (2.5 : ℝ) * nBasis / p.nAtom - k| ≤ 1 / 2)

/-- An operation that can give force constants. -/
def GivesFc : Op C P → Prop
  | .run _ => True
  | .loadRestart .. => True
  | _ => False

end Verif.Spec
