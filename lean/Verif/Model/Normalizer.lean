import Verif.Model.DataSet
import Mathlib.Analysis.SpecialFunctions.Pow.Real
/-
Model of `DataSetNormalizer` (`pybrain/tools/datasettools.py`).

A field of the dataset is given by its columns (the code treats every column on its own); numbers are
real.  Text files are lists of characters.
-/
namespace Verif.Normalizer

open Verif.DataSet (Err)

/-- `DataSetNormalizer` (datasettools.py:79-83) with the attributes set by `load` and `calculate`.
A scale which is not finite (division by zero) is `none`. -/
structure Normalizer where
  meanstd : Bool
  dim : Nat
  par1 : List ℝ
  par2 : List ℝ
  scale : List (Option ℝ)
  newmin : ℝ
  newmax : ℝ

/-- `min(axis=0)` of one non-empty column. -/
noncomputable def colMin : List ℝ → ℝ
  | [] => 0
  | x :: l => l.foldl min x

/-- `max(axis=0)` of one non-empty column. -/
noncomputable def colMax : List ℝ → ℝ
  | [] => 0
  | x :: l => l.foldl max x

/-- `mean(axis=0)`. -/
noncomputable def colMean (l : List ℝ) : ℝ := l.sum / l.length

/-- `std(axis=0)`: the root of the mean squared deviation. -/
noncomputable def colStd (l : List ℝ) : ℝ := Real.sqrt ((l.map (fun x => (x - colMean l) ^ 2)).sum / l.length)

open Classical in
/-- Division as numpy does it: not finite when the divisor is zero. -/
noncomputable def fdiv (a b : ℝ) : Option ℝ := if b = 0 then none else some (a / b)

/-- `calculate` (datasettools.py:134-144).  In the mean/std mode an old `scale` stays. -/
noncomputable def calculate (n : Normalizer) (columns : List (List ℝ)) (b0 b1 : ℝ) : Normalizer :=
  if n.meanstd then
    { n with dim := columns.length, par1 := columns.map colMean, par2 := columns.map colStd, newmin := b0, newmax := b1 }
  else
    { n with
      dim := columns.length, par1 := columns.map colMin, par2 := columns.map colMax
      scale := columns.map (fun c => fdiv (b1 - b0) (colMax c - colMin c)), newmin := b0, newmax := b1 }

open Classical in
/-- The divisor of a column in the mean/std mode (datasettools.py:126). -/
noncomputable def divisor (p : ℝ) : ℝ := if 0 < p then p else 1

/-- `normalize` (datasettools.py:116-132). -/
noncomputable def normalize (n : Normalizer) (columns : List (List ℝ)) : Except Err (List (List ℝ)) :=
  if n.dim ≤ 0 then .error .indexError
  else if n.dim ≠ columns.length then .error .indexError
  else if n.meanstd then
    .ok (columns.zipIdx.map (fun ci => ci.1.map (fun x => (x - n.par1.getD ci.2 0) / divisor (n.par2.getD ci.2 0))))
  else
    .ok (columns.zipIdx.map (fun ci => ci.1.map (fun x => (x - n.par1.getD ci.2 0) * ((n.scale.getD ci.2 none).getD 1) + n.newmin)))

/-- `save` (datasettools.py:105-111): note that only the first line is ended.  `fmt` is the `%g` format
and `idx` the `%d` format. -/
def save (fmt : ℝ → List Char) (idx : Nat → List Char) (n : Normalizer) : List Char :=
  ['x', '\n'] ++ fmt n.newmin ++ [' '] ++ fmt n.newmax ++
    (List.range n.dim).flatMap (fun i => idx (i + 1) ++ [' '] ++ fmt (n.par1.getD i 0) ++ [' '] ++ fmt (n.par2.getD i 0))

/-- The lines of a text, each with its end. -/
def lines : List Char → List (List Char)
  | [] => []
  | c :: cs =>
    if c = '\n' then [c] :: lines cs
    else match lines cs with
      | [] => [[c]]
      | l :: ls => (c :: l) :: ls

/-- `load` (datasettools.py:85-103).  `parse` reads the numbers of a line (`ValueError` when it cannot);
with no further line `c[:, 0]` of an empty array raises `IndexError`. -/
noncomputable def load (parse : List Char → Option (List ℝ)) (text : List Char) : Except Err Normalizer :=
  match lines text with
  | x :: b :: rest =>
    match parse b, rest.mapM parse with
    | some bounds, some rows =>
      if rows = [] then .error .indexError
      else
        let c := rows.map (fun r => r.drop 1)
        let par1 := c.map (fun r => r.getD 0 0)
        let par2 := c.map (fun r => r.getD 1 0)
        .ok { meanstd := if x = ['x'] then false else true, dim := c.length, par1 := par1, par2 := par2
              scale := (par1.zip par2).map (fun p => fdiv (bounds.getD 1 0 - bounds.getD 0 0) (p.2 - p.1))
              newmin := bounds.getD 0 0, newmax := bounds.getD 1 0 }
    | _, _ => .error .valueError
  | _ => .error .indexError

end Verif.Normalizer
