import Verif.Model.Transition
import Verif.Spec.Polyfit
import Verif.Spec.Round

/-!
# Files of thermodynamic properties, crossings of free energies and phase boundaries

Specification side.
-/

namespace Verif.Spec

open Verif.Transition

/-! ### Files -/

/-- Fits, entropies and heat capacities were computed for every temperature or not at all. -/
def OnTemps (s : Source) : Prop :=
  (∀ l, s.fv = some l → l.length = s.temps.length) ∧ (∀ l, s.entropies = some l → l.length = s.temps.length) ∧
  (∀ l, s.cp = some l → l.length = s.temps.length)

/-- There is an equation of state for every temperature. -/
def FitsOf (s : Source) (fits : List Eos.Fit) : Prop := s.fv = some (fits.map some)

/-- There is an equilibrium entropy for every temperature. -/
def EntropiesOf (s : Source) (l : List ℝ) : Prop := s.entropies = some (l.map some)

/-- The volumes of the grid with the free energies at a temperature, where they are known. -/
def knownPoints (s : Source) (j : ℕ) : List (ℚ × ℝ) :=
  (List.range s.volumes.length).filterMap fun (i : ℕ) =>
    match s.volumes[i]?, s.free i j with
    | some v, some x => some (v, x)
    | _, _ => none

/-- The volumes of the tables: all hundredths from one below the smallest volume to one above the largest, both
rounded, without the last one. -/
def TableVolumes (volumes vs : List ℚ) : Prop :=
  ∃ vmin ∈ volumes, ∃ vmax ∈ volumes, (∀ w ∈ volumes, vmin ≤ w ∧ w ≤ vmax) ∧
    ∃ lo hi : ℤ, IsRoundHalfEven ((vmin - 1) * 100) lo ∧ IsRoundHalfEven ((vmax + 1) * 100) hi ∧
      vs = (List.range (hi - lo).toNat).map fun (k : ℕ) => ((lo : ℚ) + k) / 100

/-- The slope of a function between a tenth of a thousandth below and above a point. -/
noncomputable def slope4 (f : ℝ → ℝ) (v : ℝ) : ℝ := (f (v + 1 / 10000) - f (v - 1 / 10000)) / (2 / 10000)

/-- What a file holds about a source. -/
structure LoadedAs (toGPa evToJmol : ℝ) (s : Source) (q : Properties) : Prop where
  temperatures : q.temperatures = s.temps
  equilibrium : ∃ fits, FitsOf s fits ∧ q.eqVolumes = fits.map (fun e => e.v0) ∧ q.bm = fits.map (fun e => e.b0) ∧
    q.eqHelmholtz = fits.map (fun e => e.e0) ∧
    ∃ vs, TableVolumes s.volumes vs ∧ q.eosFitData = fits.map (fun e => vs.map fun (v : ℚ) => (v, e.f v)) ∧
      q.gibbs = fits.map fun e => vs.map fun (v : ℚ) => (-slope4 e.f v * toGPa, e.f v - slope4 e.f v * v)
  entropy : ∃ l, EntropiesOf s l ∧ q.eqEntropy = l.map fun x => some (x * evToJmol)
  cp : s.cp = some q.eqCp
  data : q.eosData = (List.range s.temps.length).map (knownPoints s)

/-! ### Transitions -/

/-- Points of a curve: at least two, from left to right. -/
def Curve (d : List (ℝ × ℝ)) : Prop := 2 ≤ d.length ∧ d.Pairwise fun p q => p.1 < q.1

/-- Straight lines between neighbouring points; the first and the last line are continued. -/
def Polyline (d : List (ℝ × ℝ)) (g : ℝ → ℝ) : Prop :=
  ∀ (i : ℕ) (p q : ℝ × ℝ) (t : ℝ), d[i]? = some p → d[i + 1]? = some q → (i = 0 ∨ p.1 ≤ t) →
    (i + 2 = d.length ∨ t ≤ q.1) → g t = p.2 + (q.2 - p.2) / (q.1 - p.1) * (t - p.1)

/-- A polynomial of at most the given order that fits the points best. -/
def BestPolynomial (order : ℕ) (d : List (ℝ × ℝ)) (g : ℝ → ℝ) : Prop :=
  BestFit (n := d.length) (Family order true true false) (fun i => (d.get i).1) (fun i => (d.get i).2) (fun _ => 1) g

/-- The temperature that is reported for two curves: what the solver finds for the difference of the curves of straight
lines, when it starts at what it finds for the difference of the best straight lines. -/
def TransitionOf (solve : (ℝ → ℝ) → ℝ → ℝ) (f1 f2 : List (ℝ × ℝ)) (tc : ℝ) : Prop :=
  Curve f1 ∧ Curve f2 ∧ ∃ l1 l2 g1 g2, BestPolynomial 1 f1 l1 ∧ BestPolynomial 1 f2 l2 ∧ Polyline f1 g1 ∧
    Polyline f2 g2 ∧ tc = solve (fun t => g1 t - g2 t) (solve (fun t => l1 t - l2 t) 0)

/-- A best polynomial of order two to the maximum, the order chosen by the leave-one-out score if there is a choice. -/
def ChosenPolynomial (maxOrder : ℕ) (d : List (ℝ × ℝ)) (g : ℝ → ℝ) : Prop :=
  ∃ o, 2 ≤ o ∧ o ≤ maxOrder ∧ BestPolynomial o d g ∧
    (maxOrder = 2 ∨ ∃ score, LeaveOneOut (n := d.length) (Family o true true false) (fun i => (d.get i).1)
        (fun i => (d.get i).2) (fun _ => 1) score ∧
      ∀ o', 2 ≤ o' → o' ≤ maxOrder → Determined (n := d.length) (Family o' true true false) (fun i => (d.get i).1) →
        ∀ score', LeaveOneOut (n := d.length) (Family o' true true false) (fun i => (d.get i).1)
          (fun i => (d.get i).2) (fun _ => 1) score' → score ≤ score')

/-- The highest pressure in the tables of Gibbs free energies. -/
def TopPressure (gs : List (List (ℝ × ℝ))) (m : ℝ) : Prop :=
  (∃ g ∈ gs, ∃ x ∈ g, x.1 = m) ∧ ∀ g ∈ gs, ∀ x ∈ g, x.1 ≤ m

/-- One polynomial for each temperature. -/
def GibbsFits (maxOrder : ℕ) (gs : List (List (ℝ × ℝ))) (temps : List ℝ) (fits : List (ℝ × (ℝ → ℝ))) : Prop :=
  List.Forall₂ (fun (tg : ℝ × List (ℝ × ℝ)) (m : ℝ × (ℝ → ℝ)) => m.1 = tg.1 ∧ ChosenPolynomial maxOrder tg.2 m.2)
    (temps.zip gs) fits

/-- The Gibbs free energies of all temperatures at one pressure. -/
def atPressure (fits : List (ℝ × (ℝ → ℝ))) (p : ℝ) : List (ℝ × ℝ) := fits.map fun m => (m.1, m.2 p)

/-- A phase boundary: for the pressures `-3, -3 + interval, …` below 0.8 times the lower one of the two highest
pressures, from zero on, the temperature of the transition, if it is positive. -/
def BoundaryOf (solve : (ℝ → ℝ) → ℝ → ℝ) (g1 : List (List (ℝ × ℝ))) (t1 : List ℝ) (g2 : List (List (ℝ × ℝ)))
    (t2 : List ℝ) (interval : ℝ) (maxOrder : ℕ) (b : List (ℝ × ℝ)) : Prop :=
  ∃ m1 m2 fits1 fits2, TopPressure g1 m1 ∧ TopPressure g2 m2 ∧ GibbsFits maxOrder g1 t1 fits1 ∧
    GibbsFits maxOrder g2 t2 fits2 ∧ b.Pairwise (fun x y => x.1 < y.1) ∧
    (∀ p tc, (p, tc) ∈ b ↔ (∃ k : ℕ, p = -3 + k * interval) ∧ p < 8 / 10 * min m1 m2 ∧ -(1 / 100000) < p ∧
      TransitionOf solve (atPressure fits1 p) (atPressure fits2 p) tc ∧ 0 < tc) ∧
    ∀ p, (∃ k : ℕ, p = -3 + k * interval) → p < 8 / 10 * min m1 m2 → -(1 / 100000) < p →
      ∃ tc, TransitionOf solve (atPressure fits1 p) (atPressure fits2 p) tc

end Verif.Spec
