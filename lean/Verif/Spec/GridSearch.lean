import Verif.Model.GridSearch
import Mathlib.Algebra.Group.Even

/-!
What a grid of models is, and what a saved model says, without reference to the code that lists and
writes them.
-/

namespace Verif.Spec.GridSearch
open Verif.GridSearch (Args GtinvAttrs Params Read Text Hybrid)
open Verif.Infile (PStr)

/-- `k` is the integer nearest to `x`, the even one of two. -/
def NearestEven (k : ℤ) (x : ℚ) : Prop := |x - k| ≤ 1 / 2 ∧ (|x - k| = 1 / 2 → Even k)

/-- An invariant setting of the grid: one of the model types, an order from two to the bound, for each
order below it a positive multiple of the interval up to the bound, not increasing with the order;
for polynomials of all invariants (type 2) only third order with a last number of at most five. -/
def OnInvariantGrid (a : Args) (x : GtinvAttrs) : Prop :=
  x.modelType ∈ a.modelTypes ∧ 2 ≤ x.order ∧ x.order ≤ a.orderUb ∧ x.maxl.length + 1 = x.order ∧
  (∀ (i l : ℕ), x.maxl[i]? = some l → ∃ d u k : ℕ, a.maxlInt[i]? = some d ∧ a.maxlUb[i]? = some u ∧
    1 ≤ k ∧ l = k * d ∧ l ≤ u) ∧
  x.maxl.Pairwise (· ≥ ·) ∧
  (x.modelType = 2 → x.order = 3 ∧ ∀ (l : ℕ), x.maxl[1]? = some l → l ≤ 5)

/-- An invariant setting of the request: one of those given, or one of the grid. -/
def Invariant (a : Args) (x : GtinvAttrs) : Prop :=
  match a.attrs with
  | some l => x ∈ l
  | none => a.gtinv = true ∧ OnInvariantGrid a x

/-- A radial setting of the request: one of the cutoffs, with one of the given numbers of Gaussians,
or with the cutoff plus one times 1, 1.25 or 1.5, rounded. -/
def Radial (a : Args) (cutoffs : List ℚ) (c : ℚ) (n : ℤ) : Prop :=
  c ∈ cutoffs ∧
  match a.nums with
  | some ns => n ∈ ns
  | none => NearestEven n (c + 1) ∨ NearestEven n ((c + 1) * (5 / 4)) ∨ NearestEven n ((c + 1) * (3 / 2))

/-- What every model of a request has. -/
def Common (a : Args) (elements : List PStr) (p : Params) : Prop :=
  p.elements = elements ∧ p.nType = elements.length ∧ p.alpha = a.alpha ∧
  p.includeForce = a.includeForce ∧ p.includeStress = a.includeStress

/-- A pair model of the request. -/
def PairModel (a : Args) (cutoffs : List ℚ) (elements : List PStr) (p : Params) : Prop :=
  Radial a cutoffs p.cutoff p.n ∧ p.maxP ∈ a.maxps ∧
  (if a.gtinv = true then p.modelType = 2 else p.modelType ∈ a.modelTypes ∧ p.modelType < 3) ∧
  p.feature = .pair ∧ p.gtinv = none ∧ p.maxL = 0 ∧ Common a elements p

/-- An invariant model with setting `x`. -/
def HasInvariants (x : GtinvAttrs) (p : Params) : Prop :=
  p.feature = .gtinv ∧ p.gtinv = some x ∧ p.modelType = x.modelType ∧ p.maxL ∈ x.maxl ∧
  ∀ l ∈ x.maxl, l ≤ p.maxL

/-- An invariant model of the request. -/
def InvariantModel (a : Args) (cutoffs : List ℚ) (elements : List PStr) (p : Params) : Prop :=
  Radial a cutoffs p.cutoff p.n ∧ (∃ x, Invariant a x ∧ HasInvariants x p) ∧ p.maxP = 2 ∧
  Common a elements p

/-- One of the two large models added on request: the largest cutoff, 12 Gaussians if the request has
fewer, otherwise 15. -/
def LargeModel (a : Args) (cutoffs : List ℚ) (elements : List PStr) (p : Params) : Prop :=
  (∃ n, Radial a cutoffs p.cutoff n) ∧
  (∀ c n, Radial a cutoffs c n → c ≤ p.cutoff ∧ n < p.n) ∧ (p.n = 12 ∨ p.n = 15) ∧
  (HasInvariants ⟨4, 3, [8, 8]⟩ p ∨ HasInvariants ⟨4, 4, [12, 8, 2]⟩ p) ∧ p.maxP = 2 ∧
  Common a elements p

/-- The second model of a hybrid model: two thirds of the cutoff, rounded, twice as many Gaussians as
that plus one, third order. -/
def SecondOf (main aux : Params) (maxl : List ℕ) : Prop :=
  (∃ k : ℤ, NearestEven k (main.cutoff * 2 / 3) ∧ aux.cutoff = k ∧ aux.n = 2 * (k + 1)) ∧
  HasInvariants ⟨4, 3, maxl⟩ aux ∧ aux.maxP = 2

/-- The cutoffs of a request: those given, or the automatic ones. -/
def Cutoffs (sizes : PStr → Option ℚ) (elements : List PStr) (a : Args) (cutoffs : List ℚ) : Prop :=
  match a.cutoffs with
  | some c => cutoffs = c
  | none => ∃ m : ℚ, (∃ e ∈ elements, sizes e = some m) ∧
      (∀ e ∈ elements, ∃ s, sizes e = some s ∧ s ≤ m) ∧
      ∃ k1 k2 : ℤ, NearestEven k1 (11 / 2 * m) ∧ NearestEven k2 (15 / 2 * m) ∧
        (∀ c, c ∈ cutoffs ↔ c = max (k1 : ℚ) 6 ∨ c = max (k2 : ℚ) 8) ∧ cutoffs.Nodup

/-- A request that can be met: three regularisation parameters and, if the invariants are to be
listed, bounds at least the intervals, and an interval and a bound for every order. -/
def Possible (a : Args) : Prop :=
  a.alpha.length = 3 ∧
  (a.gtinv = true → a.attrs = none →
    (∀ (i u d : ℕ), a.maxlUb[i]? = some u → a.maxlInt[i]? = some d → d ≤ u) ∧
    ∀ (i : ℕ), i + 2 ≤ a.orderUb → ∃ d u : ℕ, a.maxlInt[i]? = some d ∧ a.maxlUb[i]? = some u ∧ 0 < d)

/-- Numbers written as words are read back. -/
structure Faithful (t : Text) (ws : Char → Bool) : Prop where
  int : ∀ k, t.toInt (t.ofInt k) = .ok k
  rat : ∀ q, t.toRat (t.ofRat q) = .ok q
  intWord : ∀ k, t.ofInt k ≠ [] ∧ ∀ c ∈ t.ofInt k, ws c = false
  ratWord : ∀ q, t.ofRat q ≠ [] ∧ ∀ c ∈ t.ofRat q, ws c = false

/-- The space and the newline are white space, letters, digits and the underscore are not. -/
def Spaces (ws : Char → Bool) : Prop :=
  ws ' ' = true ∧ ws '\n' = true ∧ ∀ c : Char, c.isAlphanum = true ∨ c = '_' → ws c = false

/-- A model that can be written and read: some elements, each one word, at least three Gaussians,
three regularisation parameters, and one maximum angular number for each order from two. -/
def Writable (ws : Char → Bool) (p : Params) : Prop :=
  p.elements ≠ [] ∧ (∀ e ∈ p.elements, e ≠ [] ∧ ∀ c ∈ e, ws c = false) ∧ 3 ≤ p.n ∧
  (∃ (x y : ℚ) (k : ℕ), p.alpha = [x, y, (k : ℚ)]) ∧
  match p.feature with
  | .pair => True
  | .gtinv => ∃ x, p.gtinv = some x ∧ x.maxl.length + 1 = x.order ∧ p.maxL ∈ x.maxl ∧
      ∀ l ∈ x.maxl, l ≤ p.maxL

/-- `n` evenly spaced numbers from `a` to `b`. -/
def Spaced (xs : List ℚ) (a b : ℚ) (n : ℕ) : Prop :=
  xs.length = n ∧ ∀ (i : ℕ) (x : ℚ), xs[i]? = some x → x * ((n : ℚ) - 1) = a * ((n : ℚ) - 1 - i) + b * i ∧
    (n = 1 → x = a)

/-- The radial functions of a cutoff and a number of Gaussians: one less than the number, centred at
evenly spaced distances from zero to one less than the cutoff, of the same exponent, one or, if it is
larger, the spacing; then the constant function. -/
def GaussiansFor (gs : List (ℚ × ℚ)) (cutoff : ℚ) (n : ℤ) : Prop :=
  ∃ centres : List ℚ, Spaced centres 0 (cutoff - 1) (n - 1).toNat ∧
    gs = (centres.map fun x => (max 1 ((cutoff - 1) / ((n : ℚ) - 2)), x)) ++ [(0, 0)]

/-- The parameters read from a file are those of the model. -/
def ReadAs (r : Read) (p : Params) : Prop :=
  r.cutoff = p.cutoff ∧ r.modelType = p.modelType ∧ r.maxP = p.maxP ∧ GaussiansFor r.gaussians p.cutoff p.n ∧
  r.nType = p.elements.length ∧ r.elements = p.elements ∧
  r.includeForce = p.includeForce ∧ r.includeStress = (p.includeForce && p.includeStress) ∧
  (∀ (x y : ℚ) (k : ℕ), p.alpha = [x, y, (k : ℚ)] → Spaced r.alphas x y k) ∧
  r.atomicEnergy = p.elements.map (fun _ => 0) ∧ r.datasetType = "vasp".toList ∧
  match p.feature with
  | .pair => r.feature = "pair".toList ∧ r.maxL = 0 ∧ r.order = 0 ∧ r.maxl = []
  | .gtinv => r.feature = "gtinv".toList ∧ r.maxL = p.maxL ∧
      ∀ x, p.gtinv = some x → r.order = x.order ∧ r.maxl = x.maxl.map fun (l : ℕ) => (l : ℤ)

end Verif.Spec.GridSearch
