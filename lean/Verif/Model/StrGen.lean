import Verif.Model.Py
import Mathlib.Analysis.SpecialFunctions.Pow.Real
import Mathlib.LinearAlgebra.Matrix.NonsingularInverse

/-!
# Generation of structures for training data

`/repo/src/pypolymlp/api/pypolymlp_str.py` 20-330, `/repo/src/pypolymlp/core/strgen.py` and
`/repo/src/pypolymlp/core/displacements.py`.

Real arithmetic.  The random numbers are arbitrary: `normal k j` and `uniform k j` are the `j`-th columns of the array
that the `k`-th call of the random number generator returns.  The construction of supercells is a parameter (see
`Model/Supercell`).  An exception discards the state; the samples added before it are not modelled.
-/

namespace Verif.StrGen

abbrev Vec := Fin 3 → ℝ
abbrev Mat := Matrix (Fin 3) (Fin 3) ℝ

/-- `PolymlpStructure` (`core/data_format.py` 14-44) with the tags `base` and `mode` of `set_structure_id`; the other
optional fields are left out.  `positions` are the columns of the `(3, n)` array. -/
structure Str where
  axis : Mat
  positions : List Vec
  nAtoms : List ℕ
  elements : List String
  types : List ℕ
  volume : ℝ
  name : Option String
  base : Option String
  mode : Option String

/-- The random numbers. -/
structure Random where
  normal : ℕ → ℕ → Vec
  uniform : ℕ → ℕ → Vec

/-- `np.linspace(a, b, n)`.  With one sample the quotient is zero and the sample is `a`, as in numpy. -/
noncomputable def linspace (a b : ℝ) (n : ℕ) : List ℝ :=
  (List.range n).map fun (k : ℕ) => a + k * ((b - a) / ((n : ℝ) - 1))

/-- `np.linalg.norm` of a column. -/
noncomputable def norm (v : Vec) : ℝ := Real.sqrt (∑ i, v i ^ 2)

/-- `np.linalg.inv`; singular matrices raise a `LinAlgError`, a subclass of `ValueError`. -/
noncomputable def inv (a : Mat) : Except Err Mat := if a.det = 0 then .error .valueError else .ok a⁻¹

/-- `get_structures_from_displacements` (`displacements.py` 12-66): each displacement is a list of columns.  An empty
array has one dimension, and `disps.shape[1]` (line 22) raises an `IndexError`. -/
noncomputable def fromDisplacements (disps : List (List Vec)) (st : Str) : Except Err (List Str) :=
  if disps = [] then .error .indexError
  else do
    let ai ← inv st.axis
    return disps.mapIdx fun i d => { st with
      positions := List.zipWith (fun p v => p + ai.mulVec v) st.positions d
      name := some ("disp-" ++ toString (i + 1)) }

/-- The displacements drawn by `generate_random_const_displacements` (`displacements.py` 87-95). -/
noncomputable def drawDisps (ω : Random) (calls : ℕ) (nAtom n : ℕ) (d : ℝ) (plusminus : Bool) : List (List Vec) :=
  (List.range n).flatMap fun (i : ℕ) =>
    let rand := (List.range nAtom).map fun (j : ℕ) => (norm (ω.normal (calls + i) j))⁻¹ • ω.normal (calls + i) j
    let plus := rand.map fun v => d • v
    if plusminus then [plus, rand.map fun v => d • -v] else [plus]

/-- `generate_random_const_displacements` (`displacements.py` 69-97), the structures. -/
noncomputable def constDisplacements (ω : Random) (calls : ℕ) (st : Str) (n : ℕ) (d : ℝ) (plusminus : Bool) :
    Except Err (List Str) :=
  fromDisplacements (drawDisps ω calls st.positions.length n d plusminus) st

open Classical in
/-- `np.rint`, `np.round`: ties go to the even neighbour. -/
noncomputable def rint (x : ℝ) : ℤ :=
  if x - ⌊x⌋ < 1 / 2 then ⌊x⌋
  else if 1 / 2 < x - ⌊x⌋ then ⌊x⌋ + 1
  else if Even ⌊x⌋ then ⌊x⌋ else ⌊x⌋ + 1

/-- `convert_positions_to_disps` (`displacements.py` 100-110). -/
noncomputable def toDisplacements (st origin : Str) : List Vec :=
  List.zipWith (fun p q => origin.axis.mulVec fun i => (p i - q i) - rint (p i - q i)) st.positions origin.positions

/-- `set_structure_id` (`strgen.py` 69-74). -/
def setId (sts : List Str) (base : Option String) (mode : String) : List Str :=
  sts.map fun st => { st with base := base, mode := some mode }

/-- `isotropic_volume_change` (`structure_utils.py` 61-67). -/
noncomputable def volumeChange (st : Str) (eps : ℝ) : Str :=
  { st with axis := (eps ^ (3333333333333 / 10 ^ 13 : ℝ)) • st.axis, volume := st.volume * eps }

open Classical in
/-- `set_volume_eps_array` (`strgen.py` 77-104). -/
noncomputable def epsArray (n : ℕ) (lo hi : ℝ) (dense : Bool) : Except Err (List ℝ) :=
  if dense = false then .ok (linspace lo hi n)
  else if lo > 9 / 10 then .error .runtimeError
  else if hi < 11 / 10 then .error .runtimeError
  else
    let interval : ℝ := 2 / 10 / ((n : ℝ) + 1)
    .ok (linspace lo (9 / 10) (n / 3) ++ linspace (9 / 10 + interval) (11 / 10 - interval) n ++
      if n / 3 = 1 then [(11 / 10 + hi) / 2] else linspace (11 / 10) hi (n / 3))

/-- `size_trial` (`strgen.py` 141). -/
noncomputable def sizeTrial (ratio : Vec) (c : ℕ) : Fin 3 → ℕ := fun i => max (rint (ratio i * c)).toNat 1

/-- The loop over the candidates (`strgen.py` 138-147). -/
noncomputable def sizeLoop (ratio : Vec) (nAtom lb ub : ℕ) : List ℕ → (Fin 3 → ℕ) → Fin 3 → ℕ
  | [], size => size
  | c :: cs, size =>
    let trial := sizeTrial ratio c
    let total := nAtom * ∏ i, trial i
    if total ≥ lb then (if total ≤ ub then trial else size) else sizeLoop ratio nAtom lb ub cs trial

/-- `_find_supercell_size_nearly_isotropic` (`strgen.py` 128-148); the lattice vectors are not zero. -/
noncomputable def findSize (st : Str) (lb ub : ℕ) : Fin 3 → ℕ :=
  let len : Fin 3 → ℝ := fun i => norm fun k => st.axis k i
  let ratio : Vec := ![1, len 0 / len 1, len 0 / len 2]
  sizeLoop ratio st.nAtoms.sum lb ub ((List.range 10).map fun (k : ℕ) => k + 1) (fun _ => 1)

/-- The attributes of `StructureGenerator` that are read. -/
structure Gen where
  name : Option String
  size : Fin 3 → ℕ
  cell : Str
  axisInv : Mat

/-- `StructureGenerator.__init__` (`strgen.py` 110-135). -/
noncomputable def makeGen (sup : Str → (Fin 3 → ℕ) → Str) (st : Str) (lb ub : ℕ) : Except Err Gen :=
  if lb > ub then .error .valueError
  else do
    let size := findSize st lb ub
    let ai ← inv (sup st size).axis
    return ⟨st.name, size, sup st size, ai⟩

/-- `sample_random_single_structure` (`strgen.py` 150-174); two calls of the generator.  The volume is the one of
`PolymlpStructure.__post_init__` (`data_format.py` 46-48). -/
noncomputable def sampleSingle (ω : Random) (calls : ℕ) (g : Gen) (disp ratio : ℝ) : Str :=
  let axis : Mat := fun i j => g.cell.axis i j * ratio ^ (1 / 3 : ℝ) + (ω.uniform calls j i * 2 - 1) * disp
  { axis := axis
    positions := g.cell.positions.mapIdx fun j p =>
      p + g.axisInv.mulVec fun i => (ω.uniform (calls + 1) j i * 2 - 1) * disp
    nAtoms := g.cell.nAtoms
    elements := g.cell.elements
    types := g.cell.types
    volume := axis.det
    name := none
    base := none
    mode := none }

/-- `sample_random_structures` (`strgen.py` 176-194). -/
noncomputable def sampleRandom (ω : Random) (calls : ℕ) (g : Gen) (n : ℕ) (maxDisp ratio : ℝ) : List Str :=
  (List.range n).map fun (i : ℕ) =>
    sampleSingle ω (calls + 2 * i) g (max (1 / 100) ((((i : ℝ) + 1) / n) ^ 3 * maxDisp)) ratio

/-- `sample_density` (`strgen.py` 215-227). -/
noncomputable def sampleDensity (ω : Random) (calls : ℕ) (g : Gen) (n : ℕ) (disp lb ub : ℝ) : List Str :=
  (linspace lb ub n).mapIdx fun i r => sampleSingle ω (calls + 2 * i) g disp r

/-- The attributes of `PypolymlpStructureGenerator` (`pypolymlp_str.py` 33-38) and the number of calls of the random
number generator. -/
structure State where
  structures : Option (List Str)
  supercells : Option (List Str)
  samples : List Str
  gens : List Gen
  calls : ℕ

/-- `__init__` without base structures. -/
def State.init : State := ⟨none, none, [], [], 0⟩

/-- `build_supercell` (`pypolymlp_str.py` 85-104) for the given base structures; `None` is not iterable. -/
def buildSupercell (sup : Str → Str) (s : State) : Except Err State :=
  match s.structures with
  | none => .error .typeError
  | some sts => .ok { s with supercells := some (sts.map sup) }

/-- One iteration of the loop of `run_const_displacements` (`pypolymlp_str.py` 118-125). -/
noncomputable def constStep (ω : Random) (n : ℕ) (d : ℝ) (s : State) (st : Str) : Except Err State := do
  let new ← constDisplacements ω s.calls st n d false
  return { s with samples := s.samples ++ setId new st.name "Displacement", calls := s.calls + n }

/-- `run_const_displacements` (`pypolymlp_str.py` 106-126). -/
noncomputable def runConst (ω : Random) (n : ℕ) (d : ℝ) (s : State) : Except Err State :=
  match s.supercells with
  | none => .error .runtimeError
  | some sups => sups.foldlM (constStep ω n d) s

/-- `for dis in distances: self.run_const_displacements(n_samples=1, distance=dis)`. -/
noncomputable def seqLoop (ω : Random) (dists : List ℝ) (s : State) : Except Err State :=
  dists.foldlM (fun s d => runConst ω 1 d s) s

/-- One iteration of the loop over the supercells (`pypolymlp_str.py` 171-176). -/
noncomputable def seqStep (ω : Random) (dists epss : List ℝ) (s : State) (st : Str) : Except Err State :=
  seqLoop ω dists { s with supercells := some (epss.map (volumeChange st)) }

/-- `run_sequential_displacements` (`pypolymlp_str.py` 128-179).  The last assignment goes to `_supercell`, an attribute
that is not read. -/
noncomputable def runSequential (ω : Random) (n : ℕ) (lb ub : ℝ) (nVolumes : ℕ) (lo hi : ℝ) (s : State) :
    Except Err State :=
  match s.supercells with
  | none => .error .runtimeError
  | some sups =>
    if nVolumes = 1 then seqLoop ω (linspace lb ub n) s
    else sups.foldlM (seqStep ω (linspace lb ub n) (linspace lo hi nVolumes)) s

/-- `run_isotropic_volume_changes` (`pypolymlp_str.py` 181-214). -/
noncomputable def runVolumes (n : ℕ) (lo hi : ℝ) (dense : Bool) (s : State) : Except Err State :=
  match s.supercells with
  | none => .error .runtimeError
  | some sups => do
    let epss ← epsArray n lo hi dense
    return { s with
      samples := s.samples ++ sups.flatMap (fun st => setId (epss.map (volumeChange st)) st.name "Volume") }

/-- `build_supercells_auto` (`pypolymlp_str.py` 216-233); the lower bound has its default value. -/
noncomputable def buildAuto (sup : Str → (Fin 3 → ℕ) → Str) (maxNatom : ℕ) (s : State) : Except Err State :=
  match s.structures with
  | none => .error .typeError
  | some sts => do
    let gens ← sts.mapM fun st => makeGen sup st 48 maxNatom
    return { s with gens := gens }

/-- `run_standard_algorithm` (`pypolymlp_str.py` 235-263), one generator. -/
noncomputable def standardStep (ω : Random) (n : ℕ) (maxDisp : ℝ) (s : State) (g : Gen) : State :=
  { s with
    samples := s.samples ++ setId (sampleRandom ω s.calls g n maxDisp 1) g.name "Standard"
    calls := s.calls + 2 * n }

/-- `run_standard_algorithm` (`pypolymlp_str.py` 235-263). -/
noncomputable def runStandard (ω : Random) (n : ℕ) (maxDisp : ℝ) (s : State) : Except Err State :=
  if s.gens.length = 0 then .error .runtimeError
  else .ok (s.gens.foldl (standardStep ω n maxDisp) s)

/-- The volume ratios and the tag (`pypolymlp_str.py` 286-291); without an algorithm the tag is not assigned. -/
noncomputable def densityMode (lb ub : ℝ) (algorithm : Option String) : (ℝ × ℝ) × Option String :=
  if algorithm = some "low_auto" then ((11 / 10, 4), some "Low density")
  else if algorithm = some "high_auto" then ((6 / 10, 9 / 10), some "High density")
  else ((lb, ub), none)

/-- `run_density_algorithm` (`pypolymlp_str.py` 293-302), one generator. -/
noncomputable def densityStep (ω : Random) (n : ℕ) (d : ℝ) (b : (ℝ × ℝ) × Option String) (s : State) (g : Gen) :
    Except Err State :=
  match b.2 with
  | none => .error .nameError
  | some mode => .ok { s with
      samples := s.samples ++ setId (sampleDensity ω s.calls g n d b.1.1 b.1.2) g.name mode
      calls := s.calls + 2 * n }

/-- `run_density_algorithm` (`pypolymlp_str.py` 265-303). -/
noncomputable def runDensity (ω : Random) (n : ℕ) (d lb ub : ℝ) (algorithm : Option String) (s : State) :
    Except Err State :=
  if s.gens.length = 0 then .error .runtimeError
  else s.gens.foldlM (densityStep ω n d (densityMode lb ub algorithm)) s

/-- The methods of `PypolymlpStructureGenerator`. -/
inductive Op where
  | setStructures (sts : List Str)
  | build (sup : Str → Str)
  | const (n : ℕ) (d : ℝ)
  | sequential (n : ℕ) (lb ub : ℝ) (nVolumes : ℕ) (lo hi : ℝ)
  | volumes (n : ℕ) (lo hi : ℝ) (dense : Bool)
  | auto (sup : Str → (Fin 3 → ℕ) → Str) (maxNatom : ℕ)
  | standard (n : ℕ) (maxDisp : ℝ)
  | density (n : ℕ) (d lb ub : ℝ) (algorithm : Option String)

/-- A call of a method. -/
noncomputable def apply (ω : Random) (s : State) : Op → Except Err State
  | .setStructures sts => .ok { s with structures := some sts }
  | .build sup => buildSupercell sup s
  | .const n d => runConst ω n d s
  | .sequential n lb ub nv lo hi => runSequential ω n lb ub nv lo hi s
  | .volumes n lo hi dense => runVolumes n lo hi dense s
  | .auto sup m => buildAuto sup m s
  | .standard n m => runStandard ω n m s
  | .density n d lb ub a => runDensity ω n d lb ub a s

/-- `str(i + 1).zfill(5)` and the file name (`strgen.py` 57-62). -/
def fileName (path : List Char) (i : ℕ) : List Char :=
  let digits := Nat.toDigits 10 (i + 1)
  path ++ "/poscar-".toList ++ (List.replicate (5 - digits.length) '0' ++ digits)

end Verif.StrGen
