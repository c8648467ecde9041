import Mathlib.Algebra.Order.Field.Basic
import Mathlib.Algebra.Order.AbsoluteValue.Basic
import Mathlib.Data.Matrix.Mul

/-!
# Minimization by conjugate gradients and its line searches

`/repo/src/pypolymlp/calculator/_scipy/_optimize.py` (`minimize_cg`) and
`/repo/src/pypolymlp/calculator/_scipy/_linesearch.py` (searches written in python).

Simplifications: exact arithmetic, hence no infinite values and no NaN; an arithmetic error inside the
interpolations gives `none` as in the code; messages, warnings and counters of evaluations are left out.  The
routine `DCSRCH` of scipy behind `line_search_wolfe1` is a parameter of `minimizeCg`.
-/

namespace Verif.MinCg

section Scalar
variable {K : Type} [Field K] [LinearOrder K]

/-- First trial step of both scalar searches (`_linesearch.py` 196-201 and 461-468); `old` is `old_phi0`. -/
def firstStep (phi0 : K) (old : Option K) (derphi0 : K) : K :=
  let a := match old with
    | some o => if derphi0 ≠ 0 then min 1 (101 / 100 * 2 * (phi0 - o) / derphi0) else 1
    | none => 1
  if a < 0 then 1 else a

/-- `_quadmin` (`_linesearch.py` 607-625). -/
def quadMin (a fa fpa b fb : K) : Option K :=
  let db := b - a
  if db * db = 0 then none else
  let B := (fb - fa - fpa * db) / (db * db)
  if 2 * B = 0 then none else some (a - fpa / (2 * B))

/-- `_cubicmin` (`_linesearch.py` 572-604). -/
def cubicMin (sqrt : K → K) (a fa fpa b fb c fc : K) : Option K :=
  let db := b - a
  let dc := c - a
  let denom := (db * dc) ^ 2 * (db - dc)
  if denom = 0 then none else
  let u := fb - fa - fpa * db
  let v := fc - fa - fpa * dc
  let A := (dc ^ 2 * u + -(db ^ 2) * v) / denom
  let B := (-(dc ^ 3) * u + db ^ 3 * v) / denom
  let radical := B * B - 3 * A * fpa
  if radical < 0 then none else
  if 3 * A = 0 then none else some (a + (-B + sqrt radical) / (3 * A))

/-- What stays the same during one scalar search. -/
structure Search (K : Type) where
  phi : K → K
  derphi : K → K
  phi0 : K
  derphi0 : K
  c1 : K
  c2 : K
  extra : K → K → Bool
  sqrt : K → K

/-- The variables of `_zoom` (`_linesearch.py` 653-658). -/
structure ZoomState (K : Type) where
  aLo : K
  aHi : K
  phiLo : K
  phiHi : K
  derphiLo : K
  aRec : K
  phiRec : K

/-- The trial step of `_zoom` (`_linesearch.py` 667-688). -/
def zoomTrial (S : Search K) (first : Bool) (z : ZoomState K) : K :=
  let dalpha := z.aHi - z.aLo
  let a := if dalpha < 0 then z.aHi else z.aLo
  let b := if dalpha < 0 then z.aLo else z.aHi
  let outside (chk : K) (x : Option K) : Bool := match x with
    | none => true
    | some v => decide (v > b - chk) || decide (v < a + chk)
  let cubic := cubicMin S.sqrt z.aLo z.phiLo z.derphiLo z.aHi z.phiHi z.aRec z.phiRec
  if first || outside (1 / 5 * dalpha) cubic then
    let quad := quadMin z.aLo z.phiLo z.derphiLo z.aHi z.phiHi
    if outside (1 / 10 * dalpha) quad then z.aLo + 1 / 2 * dalpha else quad.getD 0
  else cubic.getD 0

/-- The loop of `_zoom` (`_linesearch.py` 659-723): `n` is the number of passes that are left. -/
def zoomLoop (S : Search K) : ℕ → Bool → ZoomState K → Option (K × K × K)
  | 0, _, _ => none
  | n + 1, first, z =>
    let aj := zoomTrial S first z
    let phiJ := S.phi aj
    if phiJ > S.phi0 + S.c1 * aj * S.derphi0 ∨ phiJ ≥ z.phiLo then
      zoomLoop S n false { z with phiRec := z.phiHi, aRec := z.aHi, aHi := aj, phiHi := phiJ }
    else
      let dJ := S.derphi aj
      if |dJ| ≤ -S.c2 * S.derphi0 ∧ S.extra aj phiJ = true then some (aj, phiJ, dJ)
      else if dJ * (z.aHi - z.aLo) ≥ 0 then
        zoomLoop S n false ⟨aj, z.aLo, phiJ, z.phiLo, dJ, z.aHi, z.phiHi⟩
      else
        zoomLoop S n false { z with aLo := aj, phiLo := phiJ, derphiLo := dJ, aRec := z.aLo, phiRec := z.phiLo }

/-- `_zoom` (`_linesearch.py` 628-723): `maxiter = 10` and the test after the increment give eleven passes. -/
def zoom (S : Search K) (aLo aHi phiLo phiHi derphiLo : K) : Option (K × K × K) :=
  zoomLoop S 11 true ⟨aLo, aHi, phiLo, phiHi, derphiLo, 0, S.phi0⟩

/-- Result of `scalar_search_wolfe2`: `alpha_star`, `phi_star`, `derphi_star`. -/
structure Found (K : Type) where
  alpha : Option K
  phi : Option K
  derphi : Option K
deriving DecidableEq

/-- What `_zoom` returns (`_linesearch.py` 717-723). -/
def ofZoom (r : Option (K × K × K)) : Found K := ⟨r.map (·.1), r.map (·.2.1), r.map (·.2.2)⟩

/-- The loop of `scalar_search_wolfe2` (`_linesearch.py` 484-569); `n` passes are left, the last argument says
whether it is the first pass. -/
def wolfe2Loop (S : Search K) (amax : Option K) : ℕ → Bool → (a0 a1 phiA0 phiA1 derphiA0 : K) → Found K
  | 0, _, _, a1, _, phiA1, _ => ⟨some a1, some phiA1, none⟩
  | n + 1, first, a0, a1, phiA0, phiA1, derphiA0 =>
    if a1 = 0 ∨ (∃ m, amax = some m ∧ a0 > m) then ⟨none, some S.phi0, none⟩
    else if phiA1 > S.phi0 + S.c1 * a1 * S.derphi0 ∨ (phiA1 ≥ phiA0 ∧ first = false) then
      ofZoom (zoom S a0 a1 phiA0 phiA1 derphiA0)
    else
      let d1 := S.derphi a1
      if |d1| ≤ -S.c2 * S.derphi0 ∧ S.extra a1 phiA1 = true then ⟨some a1, some phiA1, some d1⟩
      else if d1 ≥ 0 then ofZoom (zoom S a1 a0 phiA1 phiA0 d1)
      else
        let a2 := match amax with
          | some m => min (2 * a1) m
          | none => 2 * a1
        wolfe2Loop S amax n false a1 a2 phiA1 (S.phi a2) d1

/-- `scalar_search_wolfe2` (`_linesearch.py` 389-569), called with the values at zero; `none` is the
`ValueError` of `_check_c1_c2` (34-36). -/
def wolfe2 (S : Search K) (old : Option K) (amax : Option K) (maxiter : ℕ) : Option (Found K) :=
  if 0 < S.c1 ∧ S.c1 < S.c2 ∧ S.c2 < 1 then
    let a := firstStep S.phi0 old S.derphi0
    let a1 := match amax with
      | some m => min a m
      | none => a
    some (wolfe2Loop S amax maxiter true 0 a1 S.phi0 (S.phi a1) S.derphi0)
  else none

/-- The loop of `scalar_search_armijo` (`_linesearch.py` 821-847); `n` bounds the number of passes, `none`
means that the bound was reached. -/
def armijoLoop (phi sqrt : K → K) (phi0 derphi0 c1 amin : K) :
    ℕ → (a0 a1 phiA0 phiA1 : K) → Option (Option K × K)
  | 0, _, _, _, _ => none
  | n + 1, a0, a1, phiA0, phiA1 =>
    if a1 > amin then
      let factor := a0 ^ 2 * a1 ^ 2 * (a1 - a0)
      let a := (a0 ^ 2 * (phiA1 - phi0 - derphi0 * a1) - a1 ^ 2 * (phiA0 - phi0 - derphi0 * a0)) / factor
      let b := (-(a0 ^ 3) * (phiA1 - phi0 - derphi0 * a1) + a1 ^ 3 * (phiA0 - phi0 - derphi0 * a0)) / factor
      let a2 := (-b + sqrt |b ^ 2 - 3 * a * derphi0|) / (3 * a)
      let phiA2 := phi a2
      if phiA2 ≤ phi0 + c1 * a2 * derphi0 then some (some a2, phiA2)
      else
        let a2' := if a1 - a2 > a1 / 2 ∨ 1 - a2 / a1 < 96 / 100 then a1 / 2 else a2
        armijoLoop phi sqrt phi0 derphi0 c1 amin n a1 a2' phiA1 phiA2
    else some (none, phiA1)

/-- `scalar_search_armijo` (`_linesearch.py` 790-847). -/
def armijo (phi sqrt : K → K) (phi0 derphi0 c1 alpha0 amin : K) (n : ℕ) : Option (Option K × K) :=
  let phiA0 := phi alpha0
  if phiA0 ≤ phi0 + c1 * alpha0 * derphi0 then some (some alpha0, phiA0)
  else
    let a1 := -derphi0 * alpha0 ^ 2 / 2 / (phiA0 - phi0 - derphi0 * alpha0)
    let phiA1 := phi a1
    if phiA1 ≤ phi0 + c1 * a1 * derphi0 then some (some a1, phiA1)
    else armijoLoop phi sqrt phi0 derphi0 c1 amin n alpha0 a1 phiA0 phiA1

/-- The loop of `_nonmonotone_line_search_cruz` and of `_nonmonotone_line_search_cheng` (`_linesearch.py`
899-925 and 975-1001): `lim` is `f_bar + eta` or `C + eta`; `n` bounds the number of passes. -/
def nonmonotone {V W : Type} [AddCommGroup V] [Module K V] (f : V → K × W) (x d : V) (lim fk gamma tmin tmax : K) :
    ℕ → (ap am : K) → Option (K × V × K × W)
  | 0, _, _ => none
  | n + 1, ap, am =>
    let r := f (x + ap • d)
    if r.1 ≤ lim - gamma * ap ^ 2 * fk then some (ap, x + ap • d, r.1, r.2)
    else
      let tp := ap ^ 2 * fk / (r.1 + (2 * ap - 1) * fk)
      let r' := f (x - am • d)
      if r'.1 ≤ lim - gamma * am ^ 2 * fk then some (-am, x - am • d, r'.1, r'.2)
      else
        let tm := am ^ 2 * fk / (r'.1 + (2 * am - 1) * fk)
        nonmonotone f x d lim fk gamma tmin tmax n (min (max tp (tmin * ap)) (tmax * ap))
          (min (max tm (tmin * am)) (tmax * am))

/-- `_nonmonotone_line_search_cruz` (`_linesearch.py` 855-925): `prev` are the previous values, the last one at
`x`. -/
def cruz {V W : Type} [AddCommGroup V] [Module K V] (f : V → K × W) (x d : V) (prev : List K) (eta gamma tmin tmax : K)
    (n : ℕ) : Option (K × V × K × W) :=
  nonmonotone f x d (prev.foldl max (prev.headD 0) + eta) (prev.getLastD 0) gamma tmin tmax n 1 1

/-- `_nonmonotone_line_search_cheng` (`_linesearch.py` 928-1006): also the new control parameters. -/
def cheng {V W : Type} [AddCommGroup V] [Module K V] (f : V → K × W) (x d : V) (fk C Q eta gamma tmin tmax nu : K)
    (n : ℕ) : Option ((K × V × K × W) × K × K) :=
  (nonmonotone f x d (C + eta) fk gamma tmin tmax n 1 1).map fun r =>
    (r, (nu * Q * (C + eta) + r.2.2.1) / (nu * Q + 1), nu * Q + 1)

end Scalar

section Cg
variable {K : Type} [Field K] [LinearOrder K] {n : ℕ}

/-- What the line search of scipy returns (`_optimize.py` 276-288): the step, the value and the gradient there.
The value returned as `old_old_fval` is the value at the current point. -/
structure LineOut (K : Type) (n : ℕ) where
  alpha : K
  fval : K
  grad : Fin n → K

/-- The variables of `minimize_cg` (`_optimize.py` 213-227). -/
structure CgState (K : Type) (n : ℕ) where
  x : Fin n → K
  fval : K
  oldFval : K
  g : Fin n → K
  p : Fin n → K
  k : ℕ
  vecs : List (Fin n → K)

/-- The problem: function, gradient, norm of the gradient, tolerance, line search and callback. -/
structure Problem (K : Type) (n : ℕ) where
  f : (Fin n → K) → K
  grad : (Fin n → K) → Fin n → K
  norm : (Fin n → K) → K
  gtol : K
  search : CgState K n → Option (LineOut K n)
  halt : (Fin n → K) → K → Bool

/-- `polak_ribiere_powell_step` (`_optimize.py` 234-242): the next point and the next direction. -/
def prStep (x p g : Fin n → K) (alpha : K) (g' : Fin n → K) : (Fin n → K) × (Fin n → K) :=
  let beta := max 0 ((g' - g) ⬝ᵥ g' / (g ⬝ᵥ g))
  (x + alpha • p, -g' + beta • p)

/-- How the loop ends. -/
inductive Stop where
  | loop
  | lineSearch
  | callback
deriving DecidableEq

/-- The loop of `minimize_cg` (`_optimize.py` 229-306); `n` is `maxiter - k`.  The cached step is never filled,
as `descent_condition` is not given to the line search (276-288). -/
def cgLoop (P : Problem K n) : ℕ → CgState K n → CgState K n × Stop
  | 0, s => (s, .loop)
  | m + 1, s =>
    if P.norm s.g > P.gtol then
      match P.search s with
      | none => (s, .lineSearch)
      | some o =>
        let q := prStep s.x s.p s.g o.alpha o.grad
        let s' : CgState K n := ⟨q.1, o.fval, s.fval, o.grad, q.2, s.k + 1, s.vecs ++ [q.1]⟩
        if P.halt s'.x s'.fval then (s', .callback) else cgLoop P m s'
    else (s, .loop)

/-- The result of scipy (`_optimize.py` 327-338). -/
structure Result (K : Type) (n : ℕ) where
  x : Fin n → K
  fval : K
  jac : Fin n → K
  nit : ℕ
  status : ℕ
  vecs : List (Fin n → K)

/-- Whether the minimization is reported as successful (`_optimize.py` 333). -/
def Result.success (r : Result K n) : Bool := r.status == 0

/-- `minimize_cg` (`_optimize.py` 133-340); `length` is the euclidean length used for the first step (219), the
default of `maxiter` is 200 times the number of variables (197-198). -/
def minimizeCg (P : Problem K n) (length : (Fin n → K) → K) (x0 : Fin n → K) (maxiter : Option ℕ) : Result K n :=
  let maxiter := maxiter.getD (n * 200)
  let g := P.grad x0
  let f0 := P.f x0
  let r := cgLoop P maxiter ⟨x0, f0, f0 + length g / 2, g, -g, 0, [x0]⟩
  let status := if r.2 = .lineSearch then 2 else if r.1.k ≥ maxiter then 1 else 0
  ⟨r.1.x, r.1.fval, r.1.g, r.1.k, status, r.1.vecs⟩

end Cg

end Verif.MinCg
