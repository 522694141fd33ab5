import Verif.Model.Sequential
import Mathlib.Algebra.BigOperators.Fin
import Mathlib.Algebra.Order.Field.Basic
/-
Model of the evaluation of functions and modules on data sets: pybrain/datasets/supervised.py:69-104, sequential.py:175-189, importance.py:24-50, and of
ReinforcementDataSet.getSumOverSequences, reinforcement.py:43-47.

A module is its state, `activate` and `reset`. Targets, outputs and importances are vectors with `d` components (the data sets store rows of equal width, C01).
A data set is its list of sequences (`_provideSequences`): one for each sample in a SupervisedDataSet.
-/
namespace Verif.DataEval
open Verif.DataSet (Err)

variable {I S K : Type} {d : Nat} [Field K] [LinearOrder K]

/-- a sample; in data sets other than ImportanceDataSet the importance is not looked at -/
structure Sample (I K : Type) (d : Nat) where
  inp : I
  target : Fin d → K
  importance : Fin d → K

/-- `ImportanceDataSet.addSample`, importance.py:24-33: the sample that is stored -/
def newSample (inp : I) (target : Fin d → K) (importance : Option (Fin d → K)) : Sample I K d :=
  { inp := inp, target := target, importance := importance.getD fun _ => 1 }

/-- the error and the weight that one sample adds: supervised.py:86-89 (`weighted` false), importance.py:39-43 (`weighted` true) -/
def contribution (weighted : Bool) (x : Sample I K d) (res : Fin d → K) : K × K :=
  if weighted then (1 / 2 * ∑ j, x.importance j * (x.target j - res j) ^ 2, ∑ j, x.importance j) else (1 / 2 * ∑ j, (x.target j - res j) ^ 2, (d : K))

/-- `_evaluateSequence`: the state of the module, the total error and the ponderation -/
def evaluateSequence (weighted : Bool) (act : S → I → S × (Fin d → K)) : List (Sample I K d) → S → S × K × K
  | [], s => (s, 0, 0)
  | x :: xs, s =>
    let r := act s x.inp
    let c := contribution weighted x r.2
    let q := evaluateSequence weighted act xs r.1
    (q.1, c.1 + q.2.1, c.2 + q.2.2)

/-- the loop over the sequences; `reset` is the identity in `evaluateMSE` and the module's `reset` in SequentialDataSet.evaluateModuleMSE -/
def evaluateAll (weighted : Bool) (act : S → I → S × (Fin d → K)) (reset : S → S) : List (List (Sample I K d)) → S → S × K × K
  | [], s => (s, 0, 0)
  | seq :: seqs, s =>
    let r := evaluateSequence weighted act seq (reset s)
    let q := evaluateAll weighted act reset seqs r.1
    (q.1, r.2.1 + q.2.1, r.2.2 + q.2.2)

/-- `evaluateMSE` (supervised.py:69-79) and one pass of SequentialDataSet.evaluateModuleMSE (sequential.py:180-188) -/
def meanError (weighted : Bool) (act : S → I → S × (Fin d → K)) (reset : S → S) (seqs : List (List (Sample I K d))) (s : S) : Except Err (S × K) :=
  let q := evaluateAll weighted act reset seqs s
  if 0 < q.2.2 then .ok (q.1, q.2.1 / q.2.2) else .error .assertion

/-- the loop over `averageOver` -/
def averageLoop (pass : S → Except Err (S × K)) : Nat → S → K → Except Err (S × K)
  | 0, s, res => .ok (s, res)
  | n + 1, s, res =>
    match pass s with
    | .error e => .error e
    | .ok (s', v) => averageLoop pass n s' (res + v)

/-- `evaluateModuleMSE`: supervised.py:96-103 (`sequential` false: the module is reset once in each pass) and sequential.py:175-189 -/
def evaluateModuleMSE (sequential weighted : Bool) (act : S → I → S × (Fin d → K)) (reset : S → S) (seqs : List (List (Sample I K d))) (averageOver : Nat) (s : S) : Except Err K :=
  match averageLoop (fun s => if sequential then meanError weighted act reset seqs s else meanError weighted act id seqs (reset s)) averageOver s 0 with
  | .error e => .error e
  | .ok (_, res) => if averageOver = 0 then .error .zeroDivision else .ok (res / averageOver)

/-- adding rows, and the built-in `sum` of rows of the given width -/
def sumRows {A : Type} [AddCommMonoid A] (dim : Nat) (rows : List (List A)) : List A :=
  rows.foldl (fun acc r => List.zipWith (· + ·) acc r) (List.replicate dim 0)

open Verif.Sequential in
/-- `getSumOverSequences`, reinforcement.py:43-47 -/
def getSumOverSequences {A : Type} [AddCommMonoid A] (ds : SDS A) (field : String) : Except Err (List (List A)) :=
  match ds.ds.get field with
  | none => .error .keyError
  | some f => (List.range ds.getNumSequences).mapM fun (n : Nat) => (ds.getSequenceField (n : Int) field).map (sumRows f.dim)

end Verif.DataEval
