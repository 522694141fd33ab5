import Mathlib.Order.Basic
/-
Model of `runTraining` and `saveTrainingCurve` in pybrain/tools/neuralnets.py (NNregression, lines 99-158, and NNclassifier, lines 211-282; they differ in the measure of errors and in
the error that counts as the best one so far in the beginning: infinity or 100).

The trainer is given by what `trainEpochs(epoinc)` makes of the weights, the data sets by the errors of a network with given weights. Graphics and logging are left out.
-/
namespace Verif.NNTools

variable {W K : Type} [LinearOrder K]

inductive NErr where
  /-- `bestweights` is used before it was set -/
  | unboundLocal
  | indexError
  | typeError
deriving DecidableEq, Repr

/-- the settings, neuralnets.py:36-42, and the argument `convergence` -/
structure Config (W K : Type) where
  train : W → W
  trnErr : W → K
  tstErr : Option (W → K)
  hasVDS : Bool
  epoinc : Nat
  maxepochs : Nat
  convergence : Nat

/-- the local variables of `runTraining`. `best_error` is infinity if it is `none`. -/
structure St (W K : Type) where
  w : W
  epoch : Nat
  bestError : Option K
  bestEpoch : Nat
  bestWeights : Option W
  convtest : Nat
  converged : Bool
  curveX : List Nat
  curveY : List K
  valY : List K

/-- `err < best_error` -/
def better (e : K) : Option K → Bool
  | none => true
  | some b => decide (e < b)

/-- the body of the loop, neuralnets.py:117-149 and 227-263 -/
def body (c : Config W K) (s : St W K) : St W K :=
  let w := c.train s.w
  let epoch := s.epoch + c.epoinc
  let s := { s with w := w, epoch := epoch, curveX := s.curveX ++ [epoch], curveY := s.curveY ++ [c.trnErr w] }
  match c.tstErr with
  | none => s
  | some tst =>
    let err := tst w
    let s := { s with valY := s.valY ++ [err] }
    let s := if better err s.bestError then { s with bestEpoch := epoch, bestError := some err, bestWeights := some w, convtest := 0 } else { s with convtest := s.convtest + 1 }
    if s.convtest ≥ c.convergence then { s with converged := true } else s

/-- the loop -/
def loop (c : Config W K) : Nat → St W K → St W K
  | 0, s => s
  | fuel + 1, s => if s.epoch ≤ c.maxepochs ∧ s.converged = false then loop c fuel (body c s) else s

/-- the variables at the beginning -/
def start (zero : K) (best : Option K) (w : W) : St W K :=
  { w := w, epoch := 0, bestError := best, bestEpoch := 0, bestWeights := none, convtest := 0, converged := false, curveX := [0], curveY := [zero], valY := [zero] }

/-- `runTraining`: the weights of the network in the end, and the variables of the loop. For `epoinc = 0` the loop does not end (unless the test set ends it). -/
def runTraining (zero : K) (best : Option K) (c : Config W K) (w : W) : Except NErr (W × St W K) :=
  let s := loop c (c.maxepochs + 1) (start zero best w)
  if c.hasVDS then
    match s.bestWeights with
    | none => .error .unboundLocal
    | some b => .ok (b, s)
  else .ok (s.w, s)

/-- `saveTrainingCurve`, neuralnets.py:63-73: the rows written to the file -/
def saveTrainingCurve {A : Type} (curve : List (List A)) : Except NErr (List (List A)) :=
  match curve with
  | [] => .error .indexError
  | first :: _ => (List.range' 1 (first.length - 2)).mapM fun i => curve.mapM fun c => match c[i]? with | some v => .ok v | none => .error .indexError

end Verif.NNTools
