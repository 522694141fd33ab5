import Verif.Model.Utilities
import Mathlib.Algebra.Order.Field.Basic
import Mathlib.Data.List.Sort
/-
Model of pybrain/tools/plotting/fitnessprogression.py (plotFitnessProgession): the curves handed to `plot`.

Fitnesses are numbers of an ordered field. Runs (arrays of fitnesses) are not empty, and the resolution is positive. `log10` and `power(10, x)` are arguments. The option `useMedian`, styles, labels and printing are not modelled.
-/
namespace Verif.FitPlot
open Verif.Util
open Verif.DataSet (Err)

/-- keyword arguments, fitnessprogression.py:17-24 -/
structure Opts (K : Type) where
  semilog : Bool
  cutoff : Option K
  minimize : Bool
  overEvaluations : Bool
  onlySuccessful : Bool
  resolution : Nat
  log10 : K → K
  power10 : K → K

/-- an item of `fitdict`: a name with a list of runs, possibly with a number of evaluations between two fitnesses -/
structure Item (N K : Type) where
  name : N
  batch : Option ℚ
  runs : List (List K)

variable {N K : Type} [Field K] [LinearOrder K]

/-- a fitness at which a run has reached the target: `val <= targetcutoff` or `val >= targetcutoff` -/
def reached (minimize : Bool) (c x : K) : Bool := if minimize then decide (x ≤ c) else decide (c ≤ x)

/-- `isSuccessful`, fitnessprogression.py:39-46: the smallest (largest) fitness has reached the target -/
def isSuccessful (o : Opts K) (l : List K) : Bool :=
  match o.cutoff with
  | none => true
  | some c => l.any (reached o.minimize c)

/-- the loop of `relevantPart`, fitnessprogression.py:62-66 -/
def cut (hit : K → Bool) : List K → List K
  | [] => []
  | x :: xs => if hit x then [x] else x :: cut hit xs

/-- `relevantPart`, fitnessprogression.py:59-67 -/
def relevantPart (o : Opts K) (l : List K) : List K :=
  match o.cutoff with
  | none => l
  | some c => cut (reached o.minimize c) l

/-- `clip`, fitnessprogression.py:54 and 56 -/
def clipped (o : Opts K) (x : K) : K :=
  match o.cutoff with
  | none => x
  | some c => if o.minimize then min (max x c) (10 ^ 100) else min (max x (-10 ^ 100)) c

/-- `paddedClipped`, fitnessprogression.py:48-57: zeros behind the end of the run -/
def paddedClipped (o : Opts K) (l : List K) (maxLen : Nat) : List K := l.map (clipped o) ++ List.replicate (maxLen - l.length) 0

/-- the runs that are used, fitnessprogression.py:81-89 -/
def used (o : Opts K) (runs : List (List K)) : List (List K) :=
  match o.cutoff with
  | none => runs
  | some _ => (if o.onlySuccessful then runs.filter (isSuccessful o) else runs).map (relevantPart o)

/-- the largest number of a list that is not empty -/
def maxOf : List K → K
  | [] => 0
  | x :: xs => xs.foldl max x

/-- `worstPerf`, fitnessprogression.py:95 -/
def worst (runs : List (List K)) : K := maxOf (runs.map maxOf)

/-- the `i`-th element of `array(range(resolution + 1)) / resolution`, stretched, fitnessprogression.py:97-101 -/
def level (o : Opts K) (w c : K) (i : Nat) : K :=
  if o.semilog then o.power10 ((i : K) / (o.resolution : K) * (o.log10 w - o.log10 c) + o.log10 c) else (i : K) / (o.resolution : K) * (w - c) + c

/-- a curve: numbers of evaluations and fitnesses -/
abbrev Curve (K : Type) := List ℚ × List K

/-- `+=` of arrays -/
def addRows (a b : List K) : List K := List.zipWith (· + ·) a b

/-- the curve of one item, fitnessprogression.py:91-110; there is none if no runs remain. Without a cutoff, `worstPerf - None` and `log10(None)` are TypeErrors. -/
def curve (o : Opts K) (batch : ℚ) (runs : List (List K)) : Except Err (Option (Curve K)) :=
  let flist := used o runs
  if flist.length = 0 then .ok none
  else if o.overEvaluations then
    match o.cutoff with
    | none => .error .typeError
    | some c =>
      let yPlot := ((List.range (o.resolution + 1)).map (level o (worst flist) c)).reverse
      match avgFoundAfter yPlot flist batch with
      | .error e => .error e
      | .ok xPlot => .ok (some (xPlot, yPlot))
  else
    let longest := (flist.map List.length).foldl max 0
    let summed := flist.foldl (fun s l => addRows s (paddedClipped o l longest)) (List.replicate longest 0)
    .ok (some ((List.range longest).map fun (i : Nat) => (i : ℚ) * batch, paddedClipped o (summed.map (· / (flist.length : K))) longest))

/-- the loop over the items, fitnessprogression.py:72-120: a batch size of an item stays in the variable `batchsize` -/
def loop (o : Opts K) (batch : ℚ) : List (Item N K) → Except Err (List (N × Curve K))
  | [] => .ok []
  | it :: its =>
    let b := it.batch.getD batch
    match curve o b it.runs with
    | .error e => .error e
    | .ok r =>
      match loop o b its with
      | .error e => .error e
      | .ok rest => .ok (match r with
        | none => rest
        | some c => (it.name, c) :: rest)

/-- `plotFitnessProgession`: items are sorted by name -/
def progression [LinearOrder N] (o : Opts K) (batch : ℚ) (items : List (Item N K)) : Except Err (List (N × Curve K)) :=
  loop o batch (items.insertionSort fun a b => a.name ≤ b.name)

end Verif.FitPlot
