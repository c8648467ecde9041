import Verif.Model.CalcApi
import Verif.Model.Dict

/-!
# Automatic calculations for prototype structures

`/repo/src/pypolymlp/calculator/auto/autocalc_prototypes.py` 21-218 (`AutoCalcPrototypes`),
`/repo/src/pypolymlp/calculator/auto/autocalc_utils.py` 17-51, 84-200 (`AutoCalcBase`, `Prototype`) and
`/repo/src/pypolymlp/calculator/auto/structures_{element,binary}.py` (the lists of prototypes).  The object that
calculates is the one of `CalcApi`.  Not modelled: axes and positions of the prototypes, plots, the quasi-harmonic part
(commented out in the code), the text of the files.
-/

namespace Verif.AutoProto

open CalcApi

/-- A database ID: an integer for elements, text for binary prototypes; 52914 and "52914" are different keys. -/
inductive Id where
  | int (n : ℤ)
  | str (s : String)
  deriving DecidableEq

/-- `Prototype` (`autocalc_utils.py` 84-110); `supercell` is the argument of `init_phonon` made from
`phonon_supercell`, `curve` and `curveFit` are the entries of `eos_mlp` and `eos_fit`. -/
structure Prototype (St R A : Type) where
  cell : St
  name : List Char
  icsd : Id
  nAtom : ℕ
  supercell : A
  eq : Option St := none
  energy : Option ℚ := none
  volume : Option ℚ := none
  energyFit : Option ℚ := none
  volumeFit : Option ℚ := none
  bulk : Option ℚ := none
  curve : Option (List ℚ) := none
  curveFit : Option (List ℚ) := none
  elastic : Option R := none
  dos : Option R := none
  dft : Option St := none
  deriving DecidableEq

/-- What an equation of state leaves (`compute_eos.py` 111-142, `pypolymlp_calc.py` 759-784): energy, volume and bulk
modulus are None, and so is the fitted curve, if the fit raised an exception, which is caught there. -/
structure EosData where
  fit : Option (ℚ × ℚ × ℚ)
  points : List ℚ
  fitted : Option (List ℚ)
  deriving DecidableEq

/-- The code that is not modelled, and the arguments of the calls.  `reread` is the structure read from the file
`POSCAR_eq` that was written for a structure. -/
structure Tools (St V R A : Type) where
  ext : Ext St V R A
  nAtoms : St → ℕ
  vol : St → ℚ
  eosOf : R → EosData
  reread : St → Except Err St
  relax : A
  cg : A
  eosArgs : A
  elasticArgs : A
  distance : A

variable {St V R A : Type}

/-- `set_eos_data` (`autocalc_utils.py` 149-167): attributes are set one after another; None divided by a number raises
TypeError.  The number of atoms is positive. -/
def setEos (p : Prototype St R A) (d : EosData) : Prototype St R A × Except Err Unit :=
  match d.fit with
  | none => (p, .error .typeError)
  | some f =>
    let p := { p with energyFit := some (f.1 / p.nAtom), volumeFit := some (f.2.1 / p.nAtom), bulk := some f.2.2,
                      curve := some (d.points.map fun (x : ℚ) => x / p.nAtom) }
    match d.fitted with
    | none => (p, .error .typeError)
    | some l => ({ p with curveFit := some (l.map fun (x : ℚ) => x / p.nAtom) }, .ok ())

/-- `_run_geometry_optimization` (`autocalc_prototypes.py` 145-163): the structure that was saved, if successful.  An
exception of the optimization is caught, one of its preparation is not. -/
def optimize (t : Tools St V R A) (c : Calc St V R A) (p : Prototype St R A) :
    Calc St V R A × Prototype St R A × Except Err (Option St) :=
  match optInit t.ext { c with structures := some [p.cell] } none t.relax with
  | (c1, .error e) => (c1, p, .error e)
  | (c1, .ok _) =>
    match opt t.ext c1 t.cg with
    | (c2, .ok (.optimized (some (e, _, true)))) =>
      match converged c2 with
      | .ok (some s) => (c2, { p with eq := some s, energy := some (e / t.nAtoms s), volume := some (t.vol s / t.nAtoms s) },
          .ok (some s))
      | .ok none => (c2, p, .error .attributeError)
      | .error e => (c2, p, .error e)
    | (c2, _) => (c2, p, .ok none)

/-- `_run_eos` (`autocalc_prototypes.py` 165-173). -/
def runEos (t : Tools St V R A) (c : Calc St V R A) (p : Prototype St R A) :
    Calc St V R A × Prototype St R A × Except Err Unit :=
  match job t.ext c .eos none t.eosArgs with
  | (c1, .error e) => (c1, p, .error e)
  | (c1, .ok _) =>
    match jobResult c1 .eos with
    | none => (c1, p, .error .typeError)
    | some r => (c1, setEos p (t.eosOf r))

/-- `_run_elastic` (`autocalc_prototypes.py` 175-180): the file is read, and its structure becomes the structure of the
object (`pypolymlp_calc.py` 225-238). -/
def runElastic (t : Tools St V R A) (c : Calc St V R A) (saved : St) (p : Prototype St R A) :
    Calc St V R A × Prototype St R A × Except Err Unit :=
  match t.reread saved with
  | .error e => (c, p, .error e)
  | .ok s =>
    match job t.ext { c with structures := some [s] } .elastic none t.elasticArgs with
    | (c1, .error e) => (c1, p, .error e)
    | (c1, .ok _) => (c1, { p with elastic := jobResult c1 .elastic }, .ok ())

/-- `_run_phonon` (`autocalc_prototypes.py` 182-193). -/
def runPhonon (t : Tools St V R A) (c : Calc St V R A) (p : Prototype St R A) :
    Calc St V R A × Prototype St R A × Except Err Unit :=
  match phononInit t.ext c none p.supercell with
  | (c1, .error e) => (c1, p, .error e)
  | (c1, .ok _) =>
    match phonon t.ext c1 t.distance with
    | (c2, .error e) => (c2, p, .error e)
    | (c2, .ok _) => (c2, { p with dos := phononResult c2 }, .ok ())

/-- The body of the loop in `run` (`autocalc_prototypes.py` 79-94). -/
def runOne (t : Tools St V R A) (c : Calc St V R A) (p : Prototype St R A) :
    Calc St V R A × Prototype St R A × Except Err Unit :=
  match optimize t c p with
  | (c1, p1, .error e) => (c1, p1, .error e)
  | (c1, p1, .ok none) => (c1, p1, .ok ())
  | (c1, p1, .ok (some s)) =>
    match runEos t c1 p1 with
    | (c2, p2, .error e) => (c2, p2, .error e)
    | (c2, p2, .ok _) =>
      match runElastic t c2 s p2 with
      | (c3, p3, .error e) => (c3, p3, .error e)
      | (c3, p3, .ok _) => runPhonon t c3 p3

/-- `run` (`autocalc_prototypes.py` 71-96): prototypes are changed in place; an exception ends the loop. -/
def runAll (t : Tools St V R A) (c : Calc St V R A) :
    List (Prototype St R A) → Calc St V R A × List (Prototype St R A) × Except Err Unit
  | [] => (c, [], .ok ())
  | p :: ps =>
    match runOne t c p with
    | (c1, p1, .error e) => (c1, p1 :: ps, .error e)
    | (c1, p1, .ok _) =>
      let r := runAll t c1 ps
      (r.1, p1 :: r.2.1, r.2.2)

/-- `run` (`autocalc_prototypes.py` 71-74) without prototypes raises RuntimeError. -/
def run (t : Tools St V R A) (c : Calc St V R A) :
    Option (List (Prototype St R A)) → Calc St V R A × Option (List (Prototype St R A)) × Except Err Unit
  | none => (c, none, .error .runtimeError)
  | some ps =>
    let r := runAll t c ps
    (r.1, some r.2.1, r.2.2)

/-- The files that `save_properties` writes (`autocalc_prototypes.py` 98-103, `autocalc_utils.py` 181-186), with the
prototypes that they show. -/
def saved (header : List Char) (ps : List (Prototype St R A)) : List (List Char × Prototype St R A) :=
  ps.filterMap fun p =>
    if p.eq.isSome then some (header ++ p.name ++ "/".toList ++ "polymlp_predictions.yaml".toList, p) else none

/-- The body of the loop in `set_dft_properties` (`autocalc_prototypes.py` 63-68): every exception is ignored. -/
def setDftOne (refine : St → Except Err St) (d : Dict Id St) (p : Prototype St R A) : Prototype St R A :=
  match d.get? p.icsd with
  | none => p
  | some s =>
    match refine s with
    | .error _ => p
    | .ok s' => { p with dft := some s' }

/-- `set_dft_properties(vaspruns, icsd_ids)` (`autocalc_prototypes.py` 53-69); `parse` is
`parse_properties_from_vaspruns`. -/
def setDft {F : Type} (parse : List F → Except Err (List St)) (refine : St → Except Err St)
    (ps : Option (List (Prototype St R A))) (vaspruns : List F) (ids : List Id) :
    Except Err (List (Prototype St R A)) :=
  match ps with
  | none => .error .runtimeError
  | some ps =>
    if vaspruns.length ≠ ids.length then .error .runtimeError
    else
      match parse vaspruns with
      | .error e => .error e
      | .ok structures => .ok (ps.map (setDftOne refine (Dict.setAll [] (ids.zip structures))))

/-! ## The lists of prototypes -/

/-- Names, IDs, numbers of atoms and supercells of elemental prototypes (`structures_element.py` 31-74, in the order of
`get_structure_list_element`; the values are the last lines of the functions below it). -/
def elementTable : List (String × ℤ × ℕ × (ℕ × ℕ × ℕ)) :=
  [("fcc", 52914, 4, (4, 4, 4)), ("bcc", 76156, 2, (4, 4, 4)), ("hcp", 652876, 2, (4, 4, 4)),
   ("Sn(tI2)", 43216, 2, (4, 4, 4)), ("Sn", 236662, 4, (4, 4, 4)), ("Bi", 653719, 4, (4, 4, 4)),
   ("Sm", 652633, 9, (6, 6, 1)), ("La", 52916, 4, (6, 6, 2)), ("diamond", 41979, 8, (4, 4, 4)),
   ("sc", 43211, 1, (4, 4, 4)), ("P(black)", 609832, 8, (6, 2, 4)), ("As", 616526, 3, (4, 4, 4)),
   ("Sb(mP4)", 42679, 4, (4, 4, 4)), ("Se(gamma)", 653045, 3, (4, 4, 4)), ("Ga", 162256, 8, (4, 4, 4)),
   ("Ga(Cmcm)", 43539, 4, (6, 2, 6)), ("In", 639810, 2, (4, 4, 4)), ("Si(I4mm)", 181908, 8, (4, 4, 4))]

/-- The same for binary prototypes (`structures_binary.py` 30-69 and the functions below). -/
def binaryTable : List (String × String × ℕ × (ℕ × ℕ × ℕ)) :=
  [("MoNi4(D1a)(x=0.20)", "107998-01", 10, (2, 2, 2)), ("MoNi4(D1a)(x=0.80)", "107998-10", 10, (2, 2, 2)),
   ("Ni3Sn(D019)(x=0.25)", "104506-10", 16, (2, 2, 2)), ("Ni3Sn(D019)(x=0.75)", "104506-01", 16, (2, 2, 2)),
   ("Ni3Ti(D024)(x=0.25)", "649037-10", 16, (2, 2, 2)), ("Ni3Ti(D024)(x=0.75)", "649037-01", 16, (2, 2, 2)),
   ("AuCu3(L12)(x=0.25)", "181127-01", 4, (4, 4, 4)), ("AuCu3(L12)(x=0.75)", "181127-10", 4, (4, 4, 4)),
   ("Al3Zr(D023)(x=0.25)", "416747-10", 16, (2, 2, 2)), ("Al3Zr(D023)(x=0.75)", "416747-01", 16, (2, 2, 2)),
   ("Al3Ti(D022)(x=0.25)", "105191-10", 8, (2, 2, 2)), ("Al3Ti(D022)(x=0.75)", "105191-01", 8, (2, 2, 2)),
   ("AlCu2Mn(L21)(x=0.25)", "188260-01", 16, (2, 2, 2)), ("AlCu2Mn(L21)(x=0.75)", "188260-10", 16, (2, 2, 2)),
   ("InNi2(B82)(x=0.33)", "105948-10", 6, (2, 2, 2)), ("InNi2(B82)(x=0.67)", "105948-01", 6, (2, 2, 2)),
   ("Fe2P(C22)(x=0.33)", "611176-10", 18, (2, 2, 2)), ("Fe2P(C22)(x=0.67)", "611176-01", 18, (2, 2, 2)),
   ("CrSi2(C40)(x=0.33)", "16504-10", 9, (2, 2, 2)), ("CrSi2(C40)(x=0.67)", "16504-01", 9, (2, 2, 2)),
   ("Cu2Sb(C38)(x=0.33)", "610464-01", 6, (2, 2, 2)), ("Cu2Sb(C38)(x=0.67)", "610464-10", 6, (2, 2, 2)),
   ("MgZn2(C14)(x=0.33)", "625334-10", 12, (2, 2, 2)), ("MgZn2(C14)(x=0.67)", "625334-01", 12, (2, 2, 2)),
   ("Si2U3(D5a)(x=0.40)", "639227-01", 10, (2, 2, 2)), ("Si2U3(D5a)(x=0.60)", "639227-10", 10, (2, 2, 2)),
   ("AuCu(L10)(x=0.50)", "59508-01", 2, (4, 4, 4)), ("CoU(Ba)(x=0.50)", "102712-01", 16, (2, 2, 2)),
   ("CsCl(B2)(x=0.50)", "650527-01", 2, (4, 4, 4)), ("NiAs(B81)(x=0.50)", "626692-01", 4, (4, 4, 4)),
   ("WC(Bh)(x=0.50)", "644708-01", 2, (4, 4, 4)), ("FeSi(B20)(x=0.50)", "635060-01", 8, (2, 2, 2)),
   ("NaTl(B32)(x=0.50)", "103775-01", 16, (2, 2, 2))]

/-- `get_structure_list_element([ele])` (`structures_element.py` 31-74); `mk` makes the cell of a name for elements. -/
def elementList (mk : String → List (List Char) → St) (diag : ℕ × ℕ × ℕ → A) (ele : List Char) :
    List (Prototype St R A) :=
  elementTable.map fun r =>
    { cell := mk r.1 [ele], name := r.1.toList, icsd := .int r.2.1, nAtom := r.2.2.1, supercell := diag r.2.2.2 }

/-- `get_structure_list_binary(element_strings)` (`structures_binary.py` 30-69). -/
def binaryList (mk : String → List (List Char) → St) (diag : ℕ × ℕ × ℕ → A) (els : List (List Char)) :
    List (Prototype St R A) :=
  binaryTable.map fun r =>
    { cell := mk r.1 els, name := r.1.toList, icsd := .str r.2.1, nAtom := r.2.2.1, supercell := diag r.2.2.2 }

/-- `AutoCalcBase.__init__` and `load_structures` (`autocalc_utils.py` 37-40, `autocalc_prototypes.py` 39-51). -/
def loadStructures (mk : String → List (List Char) → St) (diag : ℕ × ℕ × ℕ → A) :
    List (List Char) → Except Err (List (Prototype St R A))
  | [a] => .ok (elementList mk diag a)
  | [a, b] => .ok (binaryList mk diag [a, b] ++ [a, b].flatMap fun ele =>
      (elementList mk diag ele).map fun p => { p with name := p.name ++ "_".toList ++ ele })
  | _ => .error .runtimeError

end Verif.AutoProto
