import Mathlib.Data.List.Basic

/-!
# Python dictionaries

A `dict` as the list of its items in insertion order.
-/

namespace Verif

/-- A Python `dict`: its items in insertion order. -/
abbrev Dict (κ β : Type) := List (κ × β)

namespace Dict
variable {κ β : Type} [DecidableEq κ]

/-- `d.get(k)`, `none` for a missing key. -/
def get? (d : Dict κ β) (k : κ) : Option β := (d.find? fun p => p.1 = k).map (·.2)

/-- `d[k] = v`: an existing key keeps its place, a new one is added at the end. -/
def set (d : Dict κ β) (k : κ) (v : β) : Dict κ β :=
  if d.any fun p => p.1 = k then d.map fun p => if p.1 = k then (k, v) else p
  else d ++ [(k, v)]

/-- `d.keys()`. -/
def keys (d : Dict κ β) : List κ := d.map (·.1)

/-- A loop `for k, v in items: d[k] = v`. -/
def setAll (d : Dict κ β) (items : List (κ × β)) : Dict κ β :=
  items.foldl (fun d p => d.set p.1 p.2) d

end Dict
end Verif
