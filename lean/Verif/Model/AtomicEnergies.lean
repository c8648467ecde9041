import Verif.Model.Infile

/-!
# Atomic energies

`/repo/src/pypolymlp/utils/atomic_energies/atomic_energies.py` and its two tables.
-/

namespace Verif.AtomicEnergies
open Verif.Infile (PStr)

/-- `[0-9]` (`atomic_energies.py` 11). -/
def isDigit (c : Char) : Bool := decide ('0' ≤ c ∧ c ≤ '9')

/-- `[A-Z]` (`atomic_energies.py` 12). -/
def isCapital (c : Char) : Bool := decide ('A' ≤ c ∧ c ≤ 'Z')

/-- `[iter1.span()[0] for iter1 in re.finditer(r"[A-Z]", system)]`, the positions of the capital
letters (`atomic_energies.py` 12); `i` is the position of the first character. -/
def begins : ℕ → PStr → List ℕ
  | _, [] => []
  | i, c :: s => if isCapital c then i :: begins (i + 1) s else begins (i + 1) s

/-- `system[b:e]` (`atomic_energies.py` 14). -/
def slice (s : PStr) (b e : ℕ) : PStr := (s.take e).drop b

/-- `get_elements(system)` (`atomic_energies.py` 9-15). -/
def getElements (system : PStr) : List PStr :=
  let s := system.filter fun c => !isDigit c
  let b := begins 0 s
  let e := b.drop 1 ++ [s.length]
  (b.zip e).map fun p => slice s p.1 p.2

/-- The rows of `utils/atomic_energies/energies_vasp_PBE.dat` 1-61, verbatim. -/
def pbeText : List (String × String) := [
  ("Ag", "-0.19820116"), ("Al", "-0.31455471"), ("As", "-1.70125462"), ("Au", "-0.18494148"),
  ("B", "-0.46704273"), ("Ba", "-0.03101409"), ("Be", "-0.03829264"), ("Bi", "-1.32456394"),
  ("Br", "-0.26702010"), ("C", "-1.36778762"), ("Ca", "-0.00669804"), ("Cd", "-0.01269252"),
  ("Cl", "-0.37370614"), ("Cr", "-5.43535568"), ("Cs", "-0.13345046"), ("Cu", "-0.24231333"),
  ("F", "-0.58516593"), ("Fe", "-3.37684106"), ("Ga", "-0.27760085"), ("Ge", "-0.77067288"),
  ("H", "-1.11564910"), ("Hf", "-3.47141499"), ("Hg", "-0.01066417"), ("I", "-0.21203241"),
  ("In", "-0.22759447"), ("Ir", "-1.58486000"), ("K", "-0.15885132"), ("La", "-0.63873053"),
  ("Li", "-0.29385697"), ("Mg", "-0.00040000"), ("Mo", "-4.58763796"), ("N", "-3.12561282"),
  ("Na", "-0.21928380"), ("Nb", "-3.15655800"), ("Ni", "-0.68342215"), ("O", "-1.85321219"),
  ("Os", "-2.92830433"), ("P", "-1.88664411"), ("Pb", "-0.58498619"), ("Pd", "-1.47413334"),
  ("Pt", "-0.60720467"), ("Rb", "-0.14189970"), ("Re", "-4.60839996"), ("Rh", "-1.56035621"),
  ("Ru", "-2.47280302"), ("S", "-1.07903753"), ("Sb", "-1.43005001"), ("Sc", "-1.98188993"),
  ("Se", "-0.89368300"), ("Si", "-0.87162900"), ("Sn", "-0.64316709"), ("Sr", "-0.02805273"),
  ("Ta", "-3.66364591"), ("Te", "-0.41476686"), ("Ti", "-2.44987314"), ("Tl", "-0.19707947"),
  ("V", "-2.48303480"), ("W", "-4.10709057"), ("Y", "-2.26275664"), ("Zn", "-0.01014996"),
  ("Zr", "-2.31466646")]

/-- The rows of `utils/atomic_energies/energies_vasp_PBEsol.dat` 1-89, verbatim. -/
def pbesolText : List (String × String) := [
  ("Ag", "-0.23081229"), ("Al", "-0.28161711"), ("Am", "-13.64448513"), ("As", "-1.69936458"),
  ("Au", "-0.20344413"), ("B", "-0.35868981"), ("Ba", "-0.03456095"), ("Be", "-0.02253940"),
  ("Bi", "-1.36451430"), ("Br", "-0.22437408"), ("C", "-1.33690776"), ("Ca", "-0.00960248"),
  ("Cd", "-0.02036368"), ("Ce", "1.04850167"), ("Cl", "-0.31205869"), ("Cm", "-12.14782627"),
  ("Co", "-1.84146366"), ("Cr", "-5.52354630"), ("Cs", "-0.16352802"), ("Cu", "-0.27545460"),
  ("Dy", "-4.90617263"), ("Er", "-4.71354240"), ("Eu", "-8.30226244"), ("F", "-0.52986023"),
  ("Fe", "-3.28170797"), ("Fr", "-0.15874339"), ("Ga", "-0.27040184"), ("Gd", "-6.63860734"),
  ("Ge", "-0.75777467"), ("H", "-0.94490750"), ("Hf", "-3.37316265"), ("Hg", "-0.01584891"),
  ("Ho", "15.33496739"), ("I", "-0.18136690"), ("In", "-0.23301176"), ("Ir", "-1.47467121"),
  ("K", "-0.18167890"), ("La", "-0.42975161"), ("Li", "-0.28345764"), ("Lu", "-0.31680348"),
  ("Mg", "-0.00144375"), ("Mn", "-5.13108821"), ("Mo", "-4.61899807"), ("N", "-3.19117925"),
  ("Na", "-0.23691423"), ("Nb", "-3.11103553"), ("Nd", "60.06662937"), ("Ne", "-0.01821645"),
  ("Ni", "-0.52608120"), ("Np", "-6.86288312"), ("O", "-1.79668297"), ("Os", "-2.80698385"),
  ("P", "-1.85623352"), ("Pa", "-2.17662023"), ("Pb", "-0.62641935"), ("Pd", "-1.48811962"),
  ("Pm", "-5.91671014"), ("Po", "-0.64657943"), ("Pr", "46.10535739"), ("Pt", "-0.46530174"),
  ("Pu", "-9.91660829"), ("Ra", "-0.01222638"), ("Rb", "-0.16674267"), ("Re", "-4.57677808"),
  ("Rh", "-1.46826020"), ("Ru", "-2.38332326"), ("S", "-1.00139837"), ("Sb", "-1.44532272"),
  ("Sc", "-1.94490122"), ("Se", "-0.84401240"), ("Si", "-0.81384462"), ("Sm", "-8.13649187"),
  ("Sn", "-0.65049319"), ("Sr", "-0.03254321"), ("Ta", "-3.56739868"), ("Tb", "-4.31760531"),
  ("Te", "-0.70092639"), ("Th", "-1.07966731"), ("Ti", "-2.43546301"), ("Tl", "-0.21963046"),
  ("Tm", "-3.86189209"), ("U", "-4.39200161"), ("V", "-3.55970043"), ("W", "-4.02455028"),
  ("Xe", "-0.01870353"), ("Y", "-2.21609962"), ("Yb", "-0.03630102"), ("Zn", "-0.01407521"),
  ("Zr", "-2.17265221")]

/-- `dict(np.loadtxt(file, dtype=str))`: the words of the two columns, a later row wins
(`atomic_energies.py` 28, 30). -/
def loadTable (rows : List (String × String)) : Dict PStr PStr :=
  Dict.setAll [] (rows.map fun r => (r.1.toList, r.2.toList))

/-- The choice of the table (`atomic_energies.py` 27-32). -/
def table (functional code : PStr) : Except Err (Dict PStr PStr) :=
  if functional = "PBE".toList ∧ code = "vasp".toList then .ok (loadTable pbeText)
  else if functional = "PBEsol".toList ∧ code = "vasp".toList then .ok (loadTable pbesolText)
  else .error .keyError

/-- The arguments of the functions. -/
structure Request where
  elements : Option (List PStr) := none
  formula : Option PStr := none
  functional : PStr := "PBE".toList
  code : PStr := "vasp".toList

/-- The elements asked for: those of the formula if there is one; iterating over `None` is a
`TypeError` (`atomic_energies.py` 34-37). -/
def asked (r : Request) : Except Err (List PStr) :=
  match r.formula with
  | some f => .ok (getElements f)
  | none => orErr .typeError r.elements

/-- `float(data[ele])` (`atomic_energies.py` 37).  `conv` is `float`. -/
def energyOf {K : Type} (conv : PStr → Except Err K) (data : Dict PStr PStr) (ele : PStr) :
    Except Err K := do
  let t ← orErr .keyError (data.get? ele)
  conv t

/-- `get_atomic_energies(..., return_dict=False)` (`atomic_energies.py` 18-39). -/
def getAtomicEnergies {K : Type} (conv : PStr → Except Err K) (r : Request) :
    Except Err (List K × List PStr) := do
  let data ← table r.functional r.code
  let elements ← asked r
  let atomE ← elements.mapM (energyOf conv data)
  return (atomE, elements)

/-- `get_atomic_energies(..., return_dict=True)` (`atomic_energies.py` 41). -/
def getAtomicEnergiesDict {K : Type} (conv : PStr → Except Err K) (r : Request) :
    Except Err (Dict PStr K) := do
  let x ← getAtomicEnergies conv r
  return Dict.setAll [] (x.2.zip x.1)

/-- `print(tag, end="")` and `print("", v, end="")` for each value, then `print("")`
(`atomic_energies.py` 55-62). -/
def textLine (tag : PStr) (vals : List PStr) : PStr :=
  tag ++ (vals.flatMap fun v => ' ' :: v) ++ ['\n']

/-- The text printed by `get_atomic_energies_polymlp_in` (`atomic_energies.py` 44-62).  `shw` is
the text of a number and `shwNat` that of a length. -/
def polymlpIn {K : Type} (conv : PStr → Except Err K) (shw : K → PStr) (shwNat : ℕ → PStr)
    (r : Request) : Except Err PStr := do
  let x ← getAtomicEnergies conv r
  return textLine "n_type".toList [shwNat x.2.length] ++
    (textLine "elements".toList x.2 ++ textLine "atomic_energy".toList (x.1.map shw))

end Verif.AtomicEnergies
