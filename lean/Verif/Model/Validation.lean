import Verif.Model.DataSet
import Mathlib.Algebra.Field.Defs
/-
Model of pybrain/tools/validation.py: Validator.classificationPerformance, Validator.MSE and CrossValidator.validate.
A sample is a pair (input row, target row); training and testing are an arbitrary function of the fold number, the training
samples and the test samples (the trainer is deep-copied for every fold, line 318, so folds do not influence each other).
-/
namespace Verif.Validation
open Verif.DataSet (Err)

/-- section sizes of `numpy.array_split(l, n)`: the first `l % n` sections have one element more -/
def sectionSizes (l n : Nat) : List Nat := List.replicate (l % n) (l / n + 1) ++ List.replicate (n - l % n) (l / n)

/-- cut a list into sections of the given sizes -/
def cut {α : Type} : List Nat → List α → List (List α)
  | [], _ => []
  | k :: ks, xs => xs.take k :: cut ks (xs.drop k)

/-- `numpy.array_split` -/
def arraySplit {α : Type} (xs : List α) (n : Nat) : List (List α) := cut (sectionSizes xs.length n) xs

/-- lines 303-308: the indices of all sections but `i` -/
def trainIdxs (perms : List (List Nat)) (n i : Nat) : List Nat :=
  (((List.range n).eraseIdx i).map (fun j => perms.getD j [])).flatten

/-- `inp[idxs]`, `tar[idxs]` -/
def pick {α : Type} (rows : List α) (idxs : List Nat) : List α := idxs.filterMap (fun i => rows[i]?)

/-- the index sets of fold `i`: training and test -/
def foldIdxs (perm : List Nat) (n i : Nat) : List Nat × List Nat :=
  let perms := arraySplit perm n
  (trainIdxs perms n i, perms.getD i [])

/-- `CrossValidator.validate`, validation.py:284-334. `perm` is `permutation(l)`. Errors: the assertion of line 296,
`array_split` into 0 sections and `concatenate` of an empty list are ValueError. -/
def validate {α K : Type} [Field K] (rows : List α) (n : Nat) (perm : List Nat) (score : Nat → List α → List α → K) : Except Err K :=
  if rows.length ≤ n then .error .assertion
  else if n = 0 then .error .valueError
  else if n = 1 then .error .valueError
  else
    .ok (((List.range n).foldl (fun perf i =>
      let f := foldIdxs perm n i
      perf + score i (pick rows f.1) (pick rows f.2)) 0) / (n : K))

/-- `Validator.classificationPerformance`, validation.py:22-33, on one-dimensional arrays. An empty array divides by zero. -/
def classificationPerformance {V K : Type} [DecidableEq V] [Field K] (output target : List V) : Except Err K :=
  if output.length ≠ target.length then .error .assertion
  else if output.length = 0 then .error .zeroDivision
  else .ok ((((output.zip target).countP (fun p => decide (p.1 = p.2)) : Nat) : K) / (output.length : K))

/-- `Validator.MSE`, validation.py:44-78, on flattened arrays. Importances that sum to zero divide by zero. -/
def MSE {K : Type} [Field K] [DecidableEq K] (output target : List K) (importance : Option (List K)) : Except Err K :=
  if output.length ≠ target.length then .error .assertion
  else
    let imp := importance.getD (List.replicate output.length 1)
    if imp.length ≠ target.length then .error .assertion
    else
      let se := (output.zip target).map (fun p => (p.1 - p.2) ^ 2)
      if imp.sum = 0 then .error .zeroDivision
      else .ok (((se.zip imp).map (fun p => p.1 * p.2)).sum / imp.sum)

end Verif.Validation
