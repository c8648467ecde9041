import Verif.Model.Py
import Mathlib.Data.Rat.Defs
import Mathlib.Algebra.Order.Field.Basic

/-!
# The tables of polynomial invariants

The coefficients of the invariants are printed by `/repo/src/pypolymlp/polyinv/polyinv_io.py`, converted by
`polyinv/binary/convert_binary.py` and `polyinv/binary/convert_txt.py`, checked by `polyinv/binary/check_binary.py` and read
by the C++ library (`cxx/src/polymlp/polymlp_gtinv_binary.cpp`, `polymlp_gtinv_data.cpp`, `polymlp_read_gtinv.cpp`).  Files
are lists of bytes.  A double is given by its 64 bits: `enc` and `dec` convert a number into its bits and back.
`struct.error` and `OverflowError` are represented by `runtimeError`.
-/

namespace Verif.GtinvFiles

/-- A byte of a file. -/
abbrev Byte := Fin 256

/-- The `k` lowest bytes of a number, the lowest one first (`struct.pack("<i", x)`, `astype("<i4")`, `astype("<f8")`;
`convert_binary.py` 17, 34, 45). -/
def le : ℕ → ℕ → List Byte
  | 0, _ => []
  | k + 1, u => Fin.ofNat 256 u :: le k (u / 256)

/-- The number that bytes stand for, the lowest one first (`struct.unpack`; `check_binary.py` 8, 13). -/
def fromLe : List Byte → ℕ
  | [] => 0
  | b :: bs => b.val + 256 * fromLe bs

/-- Two's complement of 32 bits (`struct.unpack("<i", …)`, `check_binary.py` 8; `(int32_t)`,
`polymlp_gtinv_binary.cpp` 15). -/
def toInt32 (u : ℕ) : ℤ := if u < 2 ^ 31 then u else (u : ℤ) - 2 ^ 32

/-- `write_int32` and one element of `arr.astype("<i4").tobytes()` (`convert_binary.py` 15-17, 33-34).  Simplification: a
number that is out of range raises in both cases. -/
def writeInt (x : ℤ) : Except Err (List Byte) :=
  if -2 ^ 31 ≤ x ∧ x < 2 ^ 31 then .ok (le 4 (x % 2 ^ 32).toNat) else .error .runtimeError

/-- A row of integers after its length (`convert_binary.py` 32-34). -/
def saveRowInt (row : List ℤ) : Except Err (List Byte) := do
  let n ← writeInt row.length
  let xs ← row.mapM writeInt
  .ok (n ++ xs.flatten)

/-- A row of doubles after its length (`convert_binary.py` 43-45). -/
def saveRowDouble {D : Type} (enc : D → ℕ) (row : List D) : Except Err (List Byte) := do
  let n ← writeInt row.length
  .ok (n ++ (row.map fun x => le 8 (enc x)).flatten)

/-- The number of items followed by the items (`convert_binary.py` 29-34, 40-45, 51-58). -/
def saveItems {A : Type} (save : A → Except Err (List Byte)) (v : List A) : Except Err (List Byte) := do
  let n ← writeInt v.length
  let xs ← v.mapM save
  .ok (n ++ xs.flatten)

/-- `save_2d_int` (`convert_binary.py` 26-34). -/
def save2dInt (v : List (List ℤ)) : Except Err (List Byte) := do
  let t ← writeInt 1
  let b ← saveItems saveRowInt v
  .ok (t ++ b)

/-- `save_2d_double` (`convert_binary.py` 37-45). -/
def save2dDouble {D : Type} (enc : D → ℕ) (v : List (List D)) : Except Err (List Byte) := do
  let t ← writeInt 2
  let b ← saveItems (saveRowDouble enc) v
  .ok (t ++ b)

/-- `save_3d_int` (`convert_binary.py` 48-58). -/
def save3dInt (v : List (List (List ℤ))) : Except Err (List Byte) := do
  let t ← writeInt 3
  let b ← saveItems (saveItems saveRowInt) v
  .ok (t ++ b)

/-- `MAGIC` (`convert_binary.py` 8). -/
def magic : List Byte := [68, 65, 84, 65]

/-- `save_all` (`convert_binary.py` 61-69): the content of the file.  Simplification: when an exception is raised the bytes
written so far, which are a beginning of the file, are not given. -/
def saveAll {D : Type} (enc : D → ℕ) (l : List (List ℤ)) (c : List (List D)) (m : List (List (List ℤ))) :
    Except Err (List Byte) := do
  let n ← writeInt 3
  let bl ← save2dInt l
  let bc ← save2dDouble enc c
  let bm ← save3dInt m
  .ok (magic ++ n ++ bl ++ bc ++ bm)

/-- What is read from the rest of a file, and the rest that follows. -/
abbrev Reader (A : Type) := List Byte → Except Err (A × List Byte)

/-- `read_int32` (`check_binary.py` 6-8). -/
def readInt : Reader ℤ := fun bs =>
  if 4 ≤ bs.length then .ok (toInt32 (fromLe (bs.take 4)), bs.drop 4) else .error .runtimeError

/-- `read_double` (`check_binary.py` 11-13). -/
def readDouble {D : Type} (dec : ℕ → D) : Reader D := fun bs =>
  if 8 ≤ bs.length then .ok (dec (fromLe (bs.take 8)), bs.drop 8) else .error .runtimeError

/-- Reading item by item (`for _ in range(n)`; `check_binary.py` 20-23; `polymlp_gtinv_binary.cpp` 46-52). -/
def readN {A : Type} (r : Reader A) : ℕ → Reader (List A)
  | 0, bs => .ok ([], bs)
  | n + 1, bs => do
    let a ← r bs
    let as ← readN r n a.2
    .ok (a.1 :: as.1, as.2)

/-- The number of items and the items (`check_binary.py` 18-25, 30-38, 43-57).  `range(n)` is empty for `n < 0`. -/
def readItems {A : Type} (r : Reader A) : Reader (List A) := fun bs => do
  let n ← readInt bs
  readN r n.1.toNat n.2

/-- The number of a block, which is compared to an expected one (`check_binary.py` 77-78, 80-81, 84-85, 88-89). -/
def expect (t : ℤ) : Reader Unit := fun bs => do
  let n ← readInt bs
  if n.1 = t then .ok ((), n.2) else .error .assertionError

/-- `load_all` (`check_binary.py` 60-92) after the first four bytes. -/
def loadBlocks {D : Type} (dec : ℕ → D) : Reader (List (List ℤ) × List (List D) × List (List (List ℤ))) := fun bs => do
  let a ← expect 3 bs
  let b ← expect 1 a.2
  let l ← readItems (readItems readInt) b.2
  let d ← expect 2 l.2
  let c ← readItems (readItems (readDouble dec)) d.2
  let e ← expect 3 c.2
  let m ← readItems (readItems (readItems readInt)) e.2
  .ok ((l.1, c.1, m.1), m.2)

/-- `load_all` (`check_binary.py` 60-92). -/
def loadAll {D : Type} (dec : ℕ → D) (bs : List Byte) :
    Except Err (List (List ℤ) × List (List D) × List (List (List ℤ))) :=
  if bs.take 4 = magic then (loadBlocks dec (bs.drop 4)).map Prod.fst else .error .valueError

/-! ## The C++ library -/

/-- `ifs.read` into an array of `k` bytes that has not been initialised (`polymlp_gtinv_binary.cpp` 12-13, 24-25): at the end
of the file the rest of the array keeps what the memory held (`g`).  Simplification: the content of the memory depends only
on the position in the array. -/
def cRead (g : ℕ → Byte) (k : ℕ) (bs : List Byte) : List Byte × List Byte :=
  (bs.take k ++ (List.range' bs.length (k - bs.length)).map g, bs.drop k)

/-- A byte of an array of C++, as a number. -/
def byteAt (b : List Byte) (i : ℕ) : ℕ := (b.getD i 0).val

/-- `read_int32` of C++ (`polymlp_gtinv_binary.cpp` 11-21). -/
def cReadInt (g : ℕ → Byte) : Reader ℤ := fun bs =>
  let b := (cRead g 4 bs).1
  .ok (toInt32 (byteAt b 0 ||| byteAt b 1 <<< 8 ||| byteAt b 2 <<< 16 ||| byteAt b 3 <<< 24), (cRead g 4 bs).2)

/-- `read_double` of C++ (`polymlp_gtinv_binary.cpp` 23-40). -/
def cReadDouble {D : Type} (g : ℕ → Byte) (dec : ℕ → D) : Reader D := fun bs =>
  let b := (cRead g 8 bs).1
  .ok (dec (byteAt b 0 ||| byteAt b 1 <<< 8 ||| byteAt b 2 <<< 16 ||| byteAt b 3 <<< 24 ||| byteAt b 4 <<< 32
    ||| byteAt b 5 <<< 40 ||| byteAt b 6 <<< 48 ||| byteAt b 7 <<< 56), (cRead g 8 bs).2)

/-- `read_2d_int`, `read_3d_int` and `read_2d_double` of C++ (`polymlp_gtinv_binary.cpp` 42-90): a vector of negative length
raises `std::length_error`.  Simplification: memory is not exhausted. -/
def cReadItems {A : Type} (g : ℕ → Byte) (r : Reader A) : Reader (List A) := fun bs => do
  let n ← cReadInt g bs
  if n.1 < 0 then .error .valueError else readN r n.1.toNat n.2

/-- `GtinvData::parse` after the file has been opened (`polymlp_gtinv_data.cpp` 54-65): the first four bytes, the number of
blocks and the types of the blocks are read and not used. -/
def cParse {D : Type} (g : ℕ → Byte) (dec : ℕ → D) (bs : List Byte) :
    Except Err (List (List ℤ) × List (List D) × List (List (List ℤ))) := do
  let a ← cReadInt g (cRead g 4 bs).2
  let b ← cReadInt g a.2
  let l ← cReadItems g (cReadItems g (cReadInt g)) b.2
  let d ← cReadInt g l.2
  let c ← cReadItems g (cReadItems g (cReadDouble g dec)) d.2
  let e ← cReadInt g c.2
  let m ← cReadItems g (cReadItems g (cReadItems g (cReadInt g))) e.2
  .ok (l.1, c.1, m.1)

/-- The files beside the library by version and order (`polymlp_gtinv_data.cpp` 42-46). -/
abbrev Lib := ℤ → ℤ → Option (List Byte)

/-- `GtinvData::parse` (`polymlp_gtinv_data.cpp` 35-66); `std::invalid_argument` is represented by `valueError`. -/
def parse {D : Type} (g : ℕ → Byte) (dec : ℕ → D) (lib : Lib) (order version : ℤ) :
    Except Err (List (List ℤ) × List (List D) × List (List (List ℤ))) :=
  if order < 1 ∨ 6 < order ∨ version < 1 ∨ 2 < version then .error .valueError
  else match lib version order with
    | none => .error .runtimeError
    | some bs => cParse g dec bs

/-- The arrays of `Readgtinv` (`polymlp_read_gtinv.cpp` 53-55, 61-63). -/
structure Arrays (D : Type) where
  l : List (List ℤ)
  lm : List (List (List ℤ))
  coeffs : List (List D)
  deriving DecidableEq

/-- The position of `(l, m)` for every factor of a term (`polymlp_read_gtinv.cpp` 47-51).  An access beyond the end of a
vector, which is undefined in C++, is represented by `indexError`. -/
def lmRow (order : ℕ) (l m : List ℤ) : Except Err (List ℤ) :=
  (List.range order).mapM fun k => do
    let lk ← orErr .indexError l[k]?
    let mk ← orErr .indexError m[k]?
    .ok (lk * lk + lk + mk)

/-- An invariant of a table in the loop of `screening` (`polymlp_read_gtinv.cpp` 38-56). -/
def screenOne {D : Type} (order : ℕ) (maxl : ℤ) (t : List (List ℤ) × List (List D) × List (List (List ℤ))) (i : ℕ)
    (a : Arrays D) : Except Err (Arrays D) := do
  let l ← orErr .indexError t.1[i]?
  let last ← orErr .indexError l.getLast?
  if maxl < last then .ok a
  else do
    let ms ← orErr .indexError t.2.2[i]?
    let rows ← ms.mapM (lmRow order l)
    let cs ← orErr .indexError t.2.1[i]?
    .ok { l := a.l ++ [l], lm := a.lm ++ [rows], coeffs := a.coeffs ++ [cs] }

/-- The largest `l` of an order (`polymlp_read_gtinv.cpp` 35-36). -/
def limitOf (maxls : List ℤ) (order : ℕ) : Except Err ℤ :=
  if 1 < order then orErr .indexError maxls[order - 2]? else .ok 0

/-- One order of `screening` (`polymlp_read_gtinv.cpp` 29-57). -/
def screenOrder {D : Type} (g : ℕ → Byte) (dec : ℕ → D) (lib : Lib) (maxls : List ℤ) (version : ℤ) (a : Arrays D)
    (order : ℕ) : Except Err (Arrays D) := do
  let t ← parse g dec lib order version
  let maxl ← limitOf maxls order
  (List.range t.1.length).foldlM (fun a i => screenOne order maxl t i a) a

/-- `Readgtinv::screening` (`polymlp_read_gtinv.cpp` 23-58). -/
def screening {D : Type} (g : ℕ → Byte) (dec : ℕ → D) (lib : Lib) (gtinvOrder : ℕ) (maxls : List ℤ) (version : ℤ) :
    Except Err (Arrays D) :=
  (List.range' 1 gtinvOrder).foldlM (screenOrder g dec lib maxls version) { l := [], lm := [], coeffs := [] }

/-! ## The files of coefficients -/

variable {K : Type} [Field K] [LinearOrder K]

/-- An invariant in the file of coefficients; a key that no item follows has the value `None`. -/
structure Entry (K : Type) where
  l : List ℤ
  id : ℕ
  m : Option (List (List ℤ))
  coeffs : Option (List K)
  deriving DecidableEq

/-- A file of coefficients: the key that precedes the list, if any, and the list. -/
structure Doc (K : Type) where
  tag : Option String
  entries : List (Entry K)

/-- A list in the YAML format: `None` if nothing is printed. -/
def yamlList {A : Type} : List A → Option (List A)
  | [] => none
  | a :: as => some (a :: as)

/-- One invariant (`polyinv_io.py` 64-77).  Simplification: the text of a number is read as the same number. -/
def entry (lcomb : List ℤ) (lm : List (List (ℤ × ℤ))) (p : ℕ × List K) : Entry K :=
  { l := lcomb
    id := p.1
    m := yamlList (((p.2.zip lm).filter fun q => decide (1 / 10 ^ 15 < |q.1|)).map fun q => q.2.map Prod.snd)
    coeffs := yamlList (p.2.filter fun c => decide (1 / 10 ^ 15 < |c|)) }

/-- `save_polyinv_coeffs` (`polyinv_io.py` 46-80): the invariants that are printed for the columns of `eigvecs`.
Simplification: a combination without `l`, for which `print_list_nospace` (9-15) raises `IndexError`, raises before
anything is printed. -/
def saveCoeffs (cols : List (List K)) (lm : List (List (ℤ × ℤ))) : Except Err (List (Entry K)) := do
  let first ← orErr .indexError lm[0]?
  if first = [] ∧ cols ≠ [] then .error .indexError
  else .ok ((cols.zipIdx.map fun p => (p.2, p.1)).map (entry (first.map Prod.fst) lm))

/-- `save_polyinv_coeffs_multiple_l` (`polyinv_io.py` 34-43). -/
def saveMultiple (eigvecs : List (List (List K))) (lms : List (List (List (ℤ × ℤ)))) : Except Err (Doc K) := do
  let es ← (eigvecs.zip lms).mapM fun p => saveCoeffs p.1 p.2
  .ok { tag := some "invariants", entries := es.flatten }

/-- `pypolymlp-polyinv -l …` (`api/developer/run_polymlp_polyinv.py` 70-78). -/
def saveSingle (cols : List (List K)) (lm : List (List (ℤ × ℤ))) : Except Err (Doc K) := do
  let es ← saveCoeffs cols lm
  .ok { tag := some "invarints", entries := es }

/-- `yaml.safe_load(open(filename))["invariants"]` and the iteration over it (`convert_binary.py` 86-88;
`convert_txt.py` 82-84). -/
def invariants (d : Doc K) : Except Err (List (Entry K)) :=
  match d.tag with
  | none => .error .typeError
  | some t => if t = "invariants" then (if d.entries = [] then .error .typeError else .ok d.entries) else .error .keyError

/-- `convert_polyinv_yaml_binary` (`convert_binary.py` 72-93): the name and the content of the file.  `len(None)` raises
`TypeError` (43, 54). -/
def convertBinary (enc : K → ℕ) (order version : ℕ) (d : Doc K) : Except Err (String × List Byte) := do
  let es ← invariants d
  let cs ← es.mapM fun e => orErr .typeError e.coeffs
  let ms ← es.mapM fun e => orErr .typeError e.m
  let bs ← saveAll enc (es.map Entry.l) cs ms
  .ok ("polymlp_gtinv_data_v" ++ toString version ++ "_order" ++ toString order ++ ".bin", bs)

/-- `max` of a list (`convert_txt.py` 84, 87, 101): `ValueError` for an empty one. -/
def maxOf : List ℤ → Except Err ℤ
  | [] => .error .valueError
  | x :: xs => .ok (xs.foldl max x)

/-- A file of C++ code: the order and the largest `l` in its name and class, and the invariants in its arrays. -/
structure CFile (K : Type) where
  order : ℕ
  lmax : ℤ
  data : List (Entry K)

/-- `generate_cfiles` (`convert_txt.py` 94-127).  Simplification: the text is given by the invariants. -/
def generateCFile (order : ℕ) (data : List (Entry K)) : Except Err (CFile K) := do
  let first ← orErr .indexError data[0]?
  let lmax ← maxOf first.l
  .ok { order := order, lmax := lmax, data := data }

/-- Files are written one after the other (`convert_txt.py` 90-91): the files so far and the outcome. -/
def generateAll (order : ℕ) : List (List (Entry K)) → List (CFile K) × Except Err Unit
  | [] => ([], .ok ())
  | data :: rest =>
    match generateCFile order data with
    | .error e => ([], .error e)
    | .ok f => (f :: (generateAll order rest).1, (generateAll order rest).2)

/-- `convert_polyinv_yaml_c` (`convert_txt.py` 75-91).  Simplification: `l` is not negative. -/
def convertC (order : ℕ) (d : Doc K) : List (CFile K) × Except Err Unit :=
  match invariants d with
  | .error e => ([], .error e)
  | .ok es =>
    match es.mapM fun e => maxOf e.l with
    | .error e => ([], .error e)
    | .ok tops =>
      match maxOf tops with
      | .error e => ([], .error e)
      | .ok lmax => generateAll order ((List.range (lmax + 1).toNat).map fun (k : ℕ) =>
          ((es.zip tops).filter fun p => decide (p.2 = (k : ℤ))).map Prod.fst)

end Verif.GtinvFiles
