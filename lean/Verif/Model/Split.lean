import Verif.Model.Py

/-! # Train/test split (`/repo/src/pypolymlp/core/utils.py` 18-34) -/

namespace Verif.Split

/-- `test_ids` of `split_ids_train_test`, before they are used as an index
(`core/utils.py` 20-22). -/
def testIds (n : ℕ) (r : ℚ) : Except Err (List ℤ) := do
  let nTrain := roundHalfEven ((n : ℚ) * r)
  let nTest : ℤ := (n : ℤ) - nTrain
  let grid ← linspace 0 ((n : ℚ) - 1) nTest
  return grid.map roundHalfEven

/-- `split_ids_train_test(n_data, train_ratio)` (`core/utils.py` 18-27).  Lines 24-25 build a
boolean mask and clear the test positions (raising `IndexError` for a bad index), line 26 is
`np.where`.  Simplification: test ids are returned after index normalisation (they are
non-negative, see `testIds_range`, so this is the identity). -/
def splitIds (n : ℕ) (r : ℚ) : Except Err (List ℕ × List ℕ) := do
  let raw ← testIds n r
  let test ← raw.mapM (pyIndex n)
  let bools := test.foldl (fun m i => m.set i false) (List.replicate n true)
  return (whereTrue bools, test)

/-- `split_train_test(files, train_ratio)` (`core/utils.py` 30-34). -/
def splitTrainTest {α : Type} (files : List α) (r : ℚ) : Except Err (List α × List α) := do
  let (train, test) ← splitIds files.length r
  let a ← gather files train
  let b ← gather files test
  return (a, b)

end Verif.Split
