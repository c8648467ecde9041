import Mathlib.Data.List.Basic
import Mathlib.Logic.Function.Basic
import Mathlib.Data.Nat.Notation

/-!
# Identifiers of type pairs and of radial channels

`/repo/src/pypolymlp/cxx/src/polymlp/polymlp_mapping.cpp` (the part used by pair features) and
`set_linear_features_pair` of `polymlp_features_utils.cpp`.  Arrays of fixed size indexed by types
are functions on `ℕ`; reading outside of the allocated range is not modelled.
-/

namespace Verif.Mlp

/-- `v[i] = x` for an array seen as a function. -/
def put {α : Type} (v : ℕ → α) (i : ℕ) (x : α) : ℕ → α := fun k => if k = i then x else v k

/-- `v[i].emplace_back(x)`. -/
def push {α : Type} (v : ℕ → List α) (i : ℕ) (x : α) : ℕ → List α := put v i (v i ++ [x])

/-- `maps.type_pairs`, `maps.tp_to_types` and `maps.tp_to_n` (`polymlp_structs.h` 161-164).
`tp_to_params[tp][k]` is `fp.params[tp_to_n[tp][k]]`, so it is read through `tpN`. -/
structure TpMaps where
  typePairs : ℕ → ℕ → ℕ
  tpTypes : List (ℕ × ℕ)
  tpN : List (List ℕ)

/-- Body of the loops of `set_type_pairs` (`polymlp_mapping.cpp` 43-54).  The counter `tp` is the
number of pairs already stored. -/
def typePairStep (cond : ℕ → ℕ → List ℕ) (i : ℕ) (s : TpMaps) (j : ℕ) : TpMaps :=
  let tp := s.tpTypes.length
  let t1 := put s.typePairs j (put (s.typePairs j) i tp)
  ⟨put t1 i (put (t1 i) j tp), s.tpTypes ++ [(i, j)], s.tpN ++ [cond i j]⟩

/-- `set_type_pairs` (`polymlp_mapping.cpp` 36-56); `cond i j` is `fp.params_conditional[i][j]`. -/
def setTypePairs (nType : ℕ) (cond : ℕ → ℕ → List ℕ) : TpMaps :=
  (List.range nType).foldl
    (fun s i => (List.range' i (nType - i)).foldl (typePairStep cond i) s)
    ⟨fun _ _ => 0, [], []⟩

/-- `tpn_to_n_id[tp]`, filled from `tp_to_n[tp]` (`polymlp_mapping.cpp` 62-71). -/
def nIdTable (ns : List ℕ) : ℕ → ℕ :=
  ns.zipIdx.foldl (fun f e => put f e.1 e.2) (fun _ => 0)

/-- `ntpAttr` (`polymlp_structs.h` 33-41). -/
structure NtpAttr where
  n : ℕ
  nId : ℕ
  tp : ℕ
  gid : ℕ
  iloc : ℕ
  jloc : ℕ
deriving DecidableEq, Repr

/-- `set_ntp_global_attrs` (`polymlp_mapping.cpp` 75-88); `global_id` is the position. -/
def globalAttrs (m : TpMaps) : List NtpAttr :=
  ((m.tpN.zipIdx.flatMap fun e => e.1.map fun n => (n, nIdTable e.1 n, e.2)).zipIdx).map
    fun e => ⟨e.1.1, e.1.2.1, e.1.2.2, e.2, 0, 0⟩

/-- `ntp_attrs` of every type and `ntp_global_to_iloc`. -/
structure LocalMaps where
  attrs : ℕ → List NtpAttr
  iloc : ℕ → ℕ → ℕ

/-- Body of the loop of `set_ntp_local_attrs` (`polymlp_mapping.cpp` 94-118). -/
def localStep (m : TpMaps) (s : LocalMaps) (a : NtpAttr) : LocalMaps :=
  let t := m.tpTypes.getD a.tp (0, 0)
  let l1 := (s.attrs t.1).length
  let l2 := (s.attrs t.2).length
  let s1 : LocalMaps :=
    ⟨push s.attrs t.1 { a with iloc := l1, jloc := l2 }, put s.iloc a.gid (put (s.iloc a.gid) t.1 l1)⟩
  if t.1 ≠ t.2 then
    ⟨push s1.attrs t.2 { a with iloc := l2, jloc := l1 },
      put s1.iloc a.gid (put (s1.iloc a.gid) t.2 l2)⟩
  else s1

/-- `set_ntp_local_attrs` (`polymlp_mapping.cpp` 90-120). -/
def localMaps (m : TpMaps) : LocalMaps :=
  (globalAttrs m).foldl (localStep m) ⟨fun _ => [], fun _ _ => 0⟩

/-- `ntp_attrs_tp` of one type (`polymlp_mapping.cpp` 126-131); the compact record keeps `n_id`,
`ilocal_id` and `jlocal_id`, here the whole attribute is kept. -/
def compact (attrs : List NtpAttr) : ℕ → List NtpAttr :=
  attrs.foldl (fun v a => push v a.tp a) (fun _ => [])

/-- A term `coeff * Π anlmtp[id]` (`SingleTerm`, `polymlp_structs.h` 95-98). -/
abbrev SingleTerm (K : Type) := K × List ℕ

/-- `set_linear_features_pair` (`polymlp_features_utils.cpp` 23-45): the features of every type. -/
def pairFeatures {K : Type} [One K] (m : TpMaps) : ℕ → List (List (SingleTerm K)) :=
  let l := localMaps m
  (globalAttrs m).foldl
    (fun fs a =>
      let t := m.tpTypes.getD a.tp (0, 0)
      let fs1 := push fs t.1 [(1, [l.iloc a.gid t.1])]
      if t.1 ≠ t.2 then push fs1 t.2 [(1, [l.iloc a.gid t.2])] else fs1)
    (fun _ => [])

end Verif.Mlp
