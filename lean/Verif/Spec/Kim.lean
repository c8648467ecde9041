import Verif.Model.Kim

/-!
# Specification: a model for the KIM API
-/

namespace Verif.Spec
open Verif.Kim

/-- The potential that is put into the model for a given file: in the new format. -/
def KimPotential {P : Type} (ext : Ext P) (file : String) (p : P) : Prop :=
  ∃ q, ext.read file = .ok q ∧ ((ext.legacy q = true ∧ ext.toYaml q = .ok p) ∨ (ext.legacy q = false ∧ p = q))

/-- The names of `n` potentials in the model. -/
def kimFileNames (n : ℕ) : List String :=
  if n = 1 then ["polymlp.yaml"] else (List.range n).map fun i => "polymlp.yaml." ++ toString (i + 1)

/-- A number with at least `width` digits. -/
def digits (width n : ℕ) : String :=
  String.ofList (List.replicate (width - (toString n).length) '0') ++ toString n

/-- The name of the model. -/
def kimName (author : String) (year level : ℕ) (elements : List String) (n projectId version : ℕ) : String :=
  "Polymlp_" ++ author ++ "_" ++ toString year ++ "p" ++ toString level ++ (if 1 < n then "hybrid" else "") ++ "_" ++
    "".intercalate elements ++ "__MO_" ++ digits 12 projectId ++ "_" ++ digits 3 version

/-- A value of the description of the model: a text, a list of texts, a list of maps from texts to texts. -/
inductive EdnValue where
  | text (s : String)
  | texts (l : List String)
  | maps (l : List (List (String × String)))

/-- A map from texts to texts as it is written. -/
def ednTexts (m : List (String × String)) : List Tok := [.lbrace] ++ (m.flatMap fun e => [.str e.1, .str e.2]) ++ [.rbrace]

/-- A value as it is written. -/
def EdnValue.tokens : EdnValue → List Tok
  | .text s => [.str s]
  | .texts l => [.lbrack] ++ l.map .str ++ [.rbrack]
  | .maps l => [.lbrack] ++ l.flatMap ednTexts ++ [.rbrack]

/-- A map as it is written. -/
def ednMap (entries : List (String × EdnValue)) : List Tok :=
  [.lbrace] ++ (entries.flatMap fun e => .str e.1 :: e.2.tokens) ++ [.rbrace]

/-- An entry that is left out when there is nothing to be said. -/
def entryOf (key : String) : Option EdnValue → List (String × EdnValue)
  | none => []
  | some v => [(key, v)]

/-- The description of the model. -/
def kimEntries (o : Options) (elements : List String) (project : String) : List (String × EdnValue) :=
  [("domain", .text "openkim.org")] ++ entryOf "content-origin" (o.origin.map .text) ++
    entryOf "contributor-id" (o.contributor.map .text) ++
    [("description", .text (o.description.getD
      ("Polynomial machine learning potential (MLP) for " ++ "-".intercalate elements ++ " system.")))] ++
    entryOf "developer" (o.developer.map .texts) ++ entryOf "maintainer-id" (o.maintainer.map .text) ++
    entryOf "source-citations" (o.citations.map .maps) ++
    [("extended-id", .text project), ("kim-api-version", .text "2.3"), ("model-driver", .text o.driver),
      ("potential-type", .text "polymlp"), ("publication-year", .text (toString o.year)), ("species", .texts elements),
      ("title", .text ("Polynomial machine learning potential for " ++ "-".intercalate elements ++ " developed by Seko (" ++
        toString o.year ++ ") v" ++ digits 3 o.version))]

end Verif.Spec
