import Verif.Model.MlpMap
import Verif.Model.Cx
import Mathlib.Data.Int.Notation
import Mathlib.Algebra.Order.Ring.Int

/-!
# Identifiers of the channels `(n, l, m, type pair)`

`/repo/src/pypolymlp/cxx/src/polymlp/polymlp_mapping.cpp` (the part used by invariants) and
`compute_anlmtp_conjugate` of `polymlp_api.cpp`.  As in `MlpMap`, arrays of fixed size are functions
on `ℕ` and reading outside of the allocated range is not modelled; the hash maps are functions too,
with 0 for missing keys as `operator[]` of `std::unordered_map`.
-/

namespace Verif.Mlp
open Verif

/-- `lmAttr` (`polymlp_structs.h` 49-56). -/
structure LmAttr where
  l : ℕ
  m : ℤ
  ylmKey : ℤ
  conj : Bool
  cc : ℤ
  signJ : ℤ
deriving DecidableEq, Repr

/-- Body of the loops of `set_lm_attrs` (`polymlp_mapping.cpp` 254-275).  `(l+3)*l/2` is an integer
division. -/
def lmAttr (l : ℕ) (m : ℤ) : LmAttr :=
  let signJ := if l % 2 = 0 then 1 else -1
  let cc := if m % 2 = 0 then 1 else -1
  if m < 1 then ⟨l, m, ((l + 3) * l / 2 : ℕ) + m, false, cc, signJ⟩
  else ⟨l, m, ((l + 3) * l / 2 : ℕ) - m, true, cc, signJ⟩

/-- `set_lm_attrs` (`polymlp_mapping.cpp` 248-279): `l = 0..maxl`, `m = -l..l`. -/
def lmAttrs (maxl : ℕ) : List LmAttr :=
  (List.range (maxl + 1)).flatMap fun l =>
    (List.range (2 * l + 1)).map fun (k : ℕ) => lmAttr l ((k : ℤ) - (l : ℤ))

/-- `n_to_tp[n]` (`polymlp_mapping.cpp` 58-72): the type pairs that list `n`, in order. -/
def nToTp (m : TpMaps) (n : ℕ) : List ℕ :=
  m.tpN.zipIdx.flatMap fun e => e.1.filterMap fun n' => if n' = n then some e.2 else none

/-- `nlmtpAttr` (`polymlp_structs.h` 58-71). -/
structure NlmAttr where
  n : ℕ
  nId : ℕ
  lm : LmAttr
  tp : ℕ
  gid : ℕ
  gNoconj : ℕ
  gConj : ℤ
  iloc : ℕ
  ilocNoconj : ℕ
  jlocNoconj : ℕ
  ilocConj : ℕ
deriving DecidableEq, Repr

/-- The iterations of the three nested loops of `set_nlmtp_global_attrs`
(`polymlp_mapping.cpp` 140-145): `n`, the index and the attributes of `(l, m)`, the type pair. -/
def nlmIter (m : TpMaps) (nFn maxl : ℕ) : List (ℕ × ℕ × LmAttr × ℕ) :=
  (List.range nFn).flatMap fun n =>
    (lmAttrs maxl).zipIdx.flatMap fun e => (nToTp m n).map fun tp => (n, e.2, e.1, tp)

/-- `nlmtp_attrs`, `nlmtp_attrs_noconj` and `nlmtp_to_global` of `Maps`. -/
structure NlmGlobal where
  attrs : List NlmAttr
  noconj : List NlmAttr
  toGlobal : ℕ → ℕ → ℕ → ℕ

/-- Body of the loops of `set_nlmtp_global_attrs` (`polymlp_mapping.cpp` 144-159); `global_id` and
`global_noconj_id` are the lengths of the two lists. -/
def nlmStep (m : TpMaps) (s : NlmGlobal) (c : ℕ × ℕ × LmAttr × ℕ) : NlmGlobal :=
  let gid := s.attrs.length
  let sub : ℤ := 2 * c.2.2.1.m * ((nToTp m c.1).length : ℤ)
  let a : NlmAttr := ⟨c.1, nIdTable (m.tpN.getD c.2.2.2 []) c.1, c.2.2.1, c.2.2.2, gid,
    s.noconj.length, (gid : ℤ) - sub, 0, 0, 0, 0⟩
  ⟨s.attrs ++ [a], if c.2.2.1.conj = false then s.noconj ++ [a] else s.noconj,
    put s.toGlobal c.1 (put (s.toGlobal c.1) c.2.1 (put (s.toGlobal c.1 c.2.1) c.2.2.2 gid))⟩

/-- `set_nlmtp_global_attrs` (`polymlp_mapping.cpp` 136-162). -/
def nlmGlobal (m : TpMaps) (nFn maxl : ℕ) : NlmGlobal :=
  (nlmIter m nFn maxl).foldl (nlmStep m) ⟨[], [], fun _ _ _ => 0⟩

/-- `global_to_global_conj` (`polymlp_mapping.cpp` 164-167). -/
def conjTable (attrs : List NlmAttr) : ℕ → ℤ :=
  attrs.foldl (fun v a => put v a.gid a.gConj) (fun _ => 0)

/-- `nlmtp_attrs` and `nlmtp_attrs_noconj` of every type, and `nlmtp_global_to_iloc`. -/
structure NlmLocal where
  attrs : ℕ → List NlmAttr
  noconj : ℕ → List NlmAttr
  iloc : ℕ → ℕ → ℕ

/-- `emplace_back` of an attribute, also in the second list unless it is a conjugate. -/
def pushNoconj (v : ℕ → List NlmAttr) (t : ℕ) (a : NlmAttr) : ℕ → List NlmAttr :=
  if a.lm.conj then v else push v t a

/-- Body of the loop of `set_nlmtp_local_attrs` (`polymlp_mapping.cpp` 174-206). -/
def nlmLocalStep (m : TpMaps) (s : NlmLocal) (a : NlmAttr) : NlmLocal :=
  let t := m.tpTypes.getD a.tp (0, 0)
  let l1 := (s.attrs t.1).length
  let l2 := (s.attrs t.2).length
  let c1 := (s.noconj t.1).length
  let c2 := (s.noconj t.2).length
  let a1 := { a with iloc := l1, ilocNoconj := c1, jlocNoconj := c2 }
  let s1 : NlmLocal := ⟨push s.attrs t.1 a1, pushNoconj s.noconj t.1 a1,
    put s.iloc a.gid (put (s.iloc a.gid) t.1 l1)⟩
  if t.1 ≠ t.2 then
    let a2 := { a with iloc := l2, ilocNoconj := c2, jlocNoconj := c1 }
    ⟨push s1.attrs t.2 a2, pushNoconj s1.noconj t.2 a2,
      put s1.iloc a.gid (put (s1.iloc a.gid) t.2 l2)⟩
  else s1

/-- `set_nlmtp_local_attrs` (`polymlp_mapping.cpp` 170-208). -/
def nlmLocal (m : TpMaps) (P : List NlmAttr) : NlmLocal :=
  P.foldl (nlmLocalStep m) ⟨fun _ => [], fun _ => [], fun _ _ => 0⟩

/-- `nlmtp_global_to_iloc[{g, t}]` for an `int` key. -/
def ilocZ (iloc : ℕ → ℕ → ℕ) (g : ℤ) (t : ℕ) : ℕ := if 0 ≤ g then iloc g.toNat t else 0

/-- `set_nlmtp_local_conj_ids` (`polymlp_mapping.cpp` 232-245). -/
def nlmConjIds (s : NlmLocal) : NlmLocal :=
  let upd := fun (t : ℕ) (a : NlmAttr) => { a with ilocConj := ilocZ s.iloc a.gConj t }
  ⟨fun t => (s.attrs t).map (upd t), fun t => (s.noconj t).map (upd t), s.iloc⟩

/-- `nlmtp_attrs_noconj_tp` of one type (`polymlp_mapping.cpp` 210-230); the compact record is part
of the attribute. -/
def nlmCompact (noconj : List NlmAttr) : ℕ → List NlmAttr :=
  noconj.foldl (fun v a => push v a.tp a) (fun _ => [])

/-- The maps of `Mapping` for invariants (`polymlp_mapping.cpp` 25-31). -/
structure NlmMaps where
  tp : TpMaps
  glob : NlmGlobal
  loc : NlmLocal

/-- The constructor of `Mapping` for invariants (`polymlp_mapping.cpp` 11-32). -/
def nlmMaps (nType nFn maxl : ℕ) (cond : ℕ → ℕ → List ℕ) : NlmMaps :=
  let m := setTypePairs nType cond
  let g := nlmGlobal m nFn maxl
  ⟨m, g, nlmConjIds (nlmLocal m g.attrs)⟩

/-- `compute_anlmtp_conjugate` (`polymlp_api.cpp` 62-84) for one type: `a idx` is
`(anlmtp_r[idx], anlmtp_i[idx])`. -/
def anlmConjugate {K : Type} [Field K] (noconj : List NlmAttr) (a : ℕ → Cx K) : ℕ → Cx K :=
  noconj.zipIdx.foldl
    (fun v e =>
      let v1 := put v e.1.iloc ⟨(a e.2).re, (a e.2).im⟩
      put v1 e.1.ilocConj ⟨(e.1.lm.cc : K) * (a e.2).re, -(e.1.lm.cc : K) * (a e.2).im⟩)
    (fun _ => 0)

end Verif.Mlp
