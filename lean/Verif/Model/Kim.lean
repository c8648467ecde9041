import Verif.Model.Py
import Verif.Model.Dict
import Verif.Model.MlpFiles

/-!
# Models for the KIM API

`/repo/src/pypolymlp/utils/kim_utils.py`.  The working directory has a temporary directory and the directories of models.
Reading of potentials, their conversion and the clock (the year) are parameters; what is written is kept when an exception
is raised.  `kimspec.edn` is given by its tokens: simplification, quotation marks within texts are not considered.
-/

namespace Verif.Kim
open Verif.MlpFiles

variable {P : Type}

/-- Tokens of the EDN format. -/
inductive Tok where
  | lbrace | rbrace | lbrack | rbrack
  | str (s : String)
  deriving DecidableEq

/-- The files that are written into a directory. -/
inductive File (P : Type) where
  | pot (p : P)
  | settings (elements : List String)
  | cmake (project driver : String) (parameters : List String)
  | spec (tokens : List Tok)
  | license
  deriving DecidableEq

/-- The files of a directory by their names. -/
abbrev Dir (P : Type) := Dict String (File P)

/-- The directory of a model, and a directory `Polymlp__MO_tmp` in it. -/
structure Project (P : Type) where
  files : Dir P
  nested : Option (Dir P)
  deriving DecidableEq

/-- The working directory. -/
structure World (P : Type) where
  tmp : Option (Dir P)
  projects : Dict String (Project P)
  deriving DecidableEq

/-- The code that is not modelled: `read` opens a given file, `unpack` gives the files of an archive, `license` tells
whether a file can be copied and gives the last part of its path. -/
structure Ext (P : Type) where
  read : String → Except Err P
  legacy : P → Bool
  toYaml : P → Except Err P
  elements : P → Except Err (List String)
  unpack : String → Except Err (List String)
  license : String → Except Err String

/-- The options (`kim_utils.py` 173-187; `api/pypolymlp_utils.py` 228-243) and the year of the clock (191-192). -/
structure Options where
  author : String := "Seko"
  year : ℕ := 2026
  level : ℕ := 1
  projectId : ℕ := 0
  version : ℕ := 0
  driver : String := "Polymlp__MD_000000123456_000"
  description : Option String := none
  origin : Option String := none
  contributor : Option String := none
  developer : Option (List String) := none
  maintainer : Option String := none
  citations : Option (List (List (String × String))) := none
  license : Option String := none

/-- `str(n).zfill(width)`. -/
def zfill (width n : ℕ) : String := String.ofList (List.replicate (width - (toString n).toList.length) '0' ++ (toString n).toList)

/-- The name of the model (`kim_utils.py` 35-45). -/
def projectName (o : Options) (elements : List String) (hybrid : Bool) : String :=
  "_".intercalate ["Polymlp_" ++ o.author, toString o.year ++ "p" ++ toString o.level ++ (if hybrid then "hybrid" else ""),
    "".intercalate elements ++ "__MO", zfill 12 o.projectId, zfill 3 o.version]

/-- One line of a citation (`kim_utils.py` 107-120): `icite` of `n` citations, `ikey` of `m` keys. -/
def citeLine (n m icite ikey : ℕ) (kv : String × String) : List Tok :=
  if icite = 0 ∧ ikey = 0 then [.str "source-citations", .lbrack, .lbrace, .str kv.1, .str kv.2]
  else if ikey = 0 then [.lbrace, .str kv.1, .str kv.2]
  else if icite = n - 1 ∧ ikey = m - 1 then [.str kv.1, .str kv.2, .rbrace, .rbrack]
  else if ikey = m - 1 then [.str kv.1, .str kv.2, .rbrace]
  else [.str kv.1, .str kv.2]

/-- The citations (`kim_utils.py` 104-120). -/
def citeTokens (cites : List (List (String × String))) : List Tok :=
  cites.zipIdx.flatMap fun c => c.1.zipIdx.flatMap fun kv => citeLine cites.length c.1.length c.2 kv.2 kv.1

/-- Citations, if there are any (`kim_utils.py` 104). -/
def citesOf : Option (List (List (String × String))) → List Tok
  | none => []
  | some c => citeTokens c

/-- A field with a text. -/
def field (key : String) : Option String → List Tok
  | none => []
  | some s => [.str key, .str s]

/-- The developers (`kim_utils.py` 90-100); `developer[0]` of no developers is an `IndexError`. -/
def developerTokens : Option (List String) → Except Err (List Tok)
  | none => .ok []
  | some [] => .error .indexError
  | some [d] => .ok [.str "developer", .lbrack, .str d, .rbrack]
  | some [d, e] => .ok [.str "developer", .lbrack, .str d, .str e, .rbrack]
  | some (d :: l) => .ok ([.str "developer", .lbrack, .str d] ++ (l.dropLast.map .str) ++ ((l.getLast?.map Tok.str).toList ++ [.rbrack]))

/-- The title (`kim_utils.py` 74-80). -/
def titleOf (o : Options) (elements : List String) : String :=
  " ".intercalate ["Polynomial machine learning potential for", "-".intercalate elements,
    "developed by Seko (" ++ toString o.year ++ ")", "v" ++ zfill 3 o.version]

/-- What is printed before the developers (`kim_utils.py` 82-89). -/
def specHead (o : Options) (description : String) : List Tok :=
  [.lbrace, .str "domain", .str "openkim.org"] ++ field "content-origin" o.origin ++ field "contributor-id" o.contributor ++
    field "description" (some description)

/-- What is printed after them (`kim_utils.py` 101-128). -/
def specTail (o : Options) (project : String) (elements : List String) : List Tok :=
  field "maintainer-id" o.maintainer ++ citesOf o.citations ++
    [.str "extended-id", .str project, .str "kim-api-version", .str "2.3", .str "model-driver", .str o.driver,
      .str "potential-type", .str "polymlp", .str "publication-year", .str (toString o.year), .str "species", .lbrack] ++
    elements.map .str ++ [.rbrack, .str "title", .str (titleOf o elements), .rbrace]

/-- The description (`kim_utils.py` 194-200). -/
def descriptionOf (o : Options) (elements : List String) : String :=
  match o.description with
  | some d => d
  | none => " ".intercalate ["Polynomial machine learning potential (MLP) for", "-".intercalate elements, "system."]

/-- The potential files of a directory, sorted (`kim_utils.py` 32-33). -/
def potentials (d : Dir P) : List String := sortNames (d.keys.filter fun f => "polymlp.yaml".toList.isPrefixOf f.toList)

/-- `generate_kim_files` (`kim_utils.py` 15-130). -/
def generate (o : Options) (elements : List String) (d : Dir P) : Dir P × Except Err String :=
  let files := potentials d
  let project := projectName o elements (decide (1 < files.length))
  let d := (d.set "polymlp.settings" (.settings elements)).set "CMakeLists.txt" (.cmake project o.driver ("polymlp.settings" :: files))
  match developerTokens o.developer with
  | .error e => (d.set "kimspec.edn" (.spec (specHead o (descriptionOf o elements))), .error e)
  | .ok t => (d.set "kimspec.edn" (.spec (specHead o (descriptionOf o elements) ++ t ++ specTail o project elements)), .ok project)

/-- The name of a copied potential (`kim_utils.py` 158-160). -/
def copyName (n i : ℕ) : String := if 1 < n then subName "polymlp.yaml" i else "polymlp.yaml"

/-- A potential in YAML (`kim_utils.py` 161-164). -/
def yamlOf (ext : Ext P) (file : String) : Except Err P := do
  let p ← ext.read file
  if ext.legacy p then ext.toYaml p else return p

/-- The elements are those of the first potential (`kim_utils.py` 166-168). -/
def elementsOf (ext : Ext P) (i : ℕ) (p : P) (els : Option (List String)) : Except Err (Option (List String)) :=
  if i = 0 then (ext.elements p).map some else .ok els

/-- The loop of `copy_mlps` (`kim_utils.py` 157-168). -/
def copyLoop (ext : Ext P) (n : ℕ) : ℕ → List String → Option (List String) → Dir P → Dir P × Except Err (Option (List String))
  | _, [], els, d => (d, .ok els)
  | i, f :: fs, els, d =>
    match yamlOf ext f with
    | .error e => (d, .error e)
    | .ok p =>
      match elementsOf ext i p els with
      | .error e => (d.set (copyName n i) (.pot p), .error e)
      | .ok els => copyLoop ext n (i + 1) fs els (d.set (copyName n i) (.pot p))

/-- `".lammps.tar.gz" in file` (`kim_utils.py` 144). -/
def isArchive (f : String) : Bool := f.toList.tails.any fun t => ".lammps.tar.gz".toList.isPrefixOf t

/-- The given files, or those of the first archive among them (`kim_utils.py` 140-155). -/
def filesOf (ext : Ext P) (files : List String) : Except Err (List String) :=
  match files.find? isArchive with
  | none => .ok files
  | some t => (ext.unpack t).map fun l => l.filter fun f => !(isArchive f)

/-- `copy_mlps` (`kim_utils.py` 133-170): without files `elements` is not assigned. -/
def copyMlps (ext : Ext P) (files : List String) (d : Dir P) : Dir P × Except Err (List String) :=
  match filesOf ext files with
  | .error e => (d, .error e)
  | .ok fs =>
    match copyLoop ext fs.length 0 (sortNames fs) none d with
    | (d, .error e) => (d, .error e)
    | (d, .ok none) => (d, .error .nameError)
    | (d, .ok (some els)) => (d, .ok els)

/-- `shutil.move(tmp_path, project)` (`kim_utils.py` 218): into the directory of this name when it exists, which is an error
when it already has a directory with the name of the temporary one. -/
def move (w : World P) (d : Dir P) (project : String) : World P × Except Err Unit :=
  match w.projects.get? project with
  | none => (⟨none, w.projects.set project ⟨d, none⟩⟩, .ok ())
  | some ⟨f, none⟩ => (⟨none, w.projects.set project ⟨f, some d⟩⟩, .ok ())
  | some ⟨_, some _⟩ => ({ w with tmp := some d }, .error .runtimeError)

/-- The license is copied into the directory of the model (`kim_utils.py` 220-221). -/
def addLicense (ext : Ext P) (license : Option String) (project : String) (w : World P) : World P × Except Err Unit :=
  match license with
  | none => (w, .ok ())
  | some l =>
    match ext.license l, w.projects.get? project with
    | .error e, _ => (w, .error e)
    | .ok name, some p => ({ w with projects := w.projects.set project { p with files := p.files.set name .license } }, .ok ())
    | .ok _, none => (w, .ok ())

/-- `convert_polymlp_to_kim_model` (`kim_utils.py` 173-221); the temporary directory may exist before. -/
def convert (ext : Ext P) (o : Options) (files : List String) (w : World P) : World P × Except Err Unit :=
  match copyMlps ext files (w.tmp.getD []) with
  | (d, .error e) => ({ w with tmp := some d }, .error e)
  | (d, .ok els) =>
    match generate o els d with
    | (d, .error e) => ({ w with tmp := some d }, .error e)
    | (d, .ok project) =>
      match move w d project with
      | (w, .error e) => (w, .error e)
      | (w, .ok _) => addLicense ext o.license project w

end Verif.Kim
