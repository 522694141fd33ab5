import Verif.Model.Landscape
import Verif.Model.Validation
/-
Model of the validation of modules on sequences in pybrain/tools/validation.py: SequenceHelper, ModuleValidator and testOnSequenceData.

A data set is its rows and the field `sequence_index`, as natural numbers (see Verif.Model.Sequential). Outputs of modules have as many entries as the targets of the data set. `reset` and `activate` belong to the module, which is
`Verif.Landscape.Mod`.
-/
namespace Verif.SeqValidation
open Verif.DataSet (Err)
open Verif.Landscape (Mod argmax)

variable {S X K : Type} [Field K] [LinearOrder K]

/-- a sample; only an ImportanceDataSet has importances -/
structure Sample (X K : Type) where
  inp : X
  target : List K
  importance : List K

/-- the classes of data sets that are distinguished -/
inductive Kind
  | supervised | sequential | importance
deriving DecidableEq

/-- a data set -/
structure Data (X K : Type) where
  kind : Kind
  rows : List (Sample X K)
  starts : List Nat
  outdim : Nat

/-- `getSequenceEnds`, validation.py:111-121: `delete` drops the first entry -/
def sequenceEnds (d : Data X K) : List Int := (d.starts.map fun i : Nat => (i : Int) - 1).eraseIdx 0 ++ [(d.rows.length : Int) - 1]

/-- `importance[i] = 1.` for one index of an array -/
def setOne (l : List K) (i : Int) : Except Err (List K) :=
  if 0 ≤ i ∧ i < l.length then .ok (l.set i.toNat 1)
  else if i < 0 ∧ 0 ≤ i + l.length then .ok (l.set (i + l.length).toNat 1)
  else .error .indexError

/-- `getSequenceEndsImportance`, validation.py:133-141. (The indices are whole numbers here.) -/
def sequenceEndsImportance (d : Data X K) : Except Err (List K) := (sequenceEnds d).foldlM setOne (List.replicate d.rows.length 0)

/-- the sequences of a data set, sequential.py:39-49 and 165-173 -/
def sequences {α : Type} (rows : List α) : List Nat → List (List α)
  | [] => []
  | [s] => [rows.drop s]
  | s :: e :: rest => (rows.take e).drop s :: sequences rows (e :: rest)

/-- activating the module for one input after the other -/
def activateAll (m : Mod S X K) : S → List X → S × List (List K)
  | s, [] => (s, [])
  | s, x :: xs =>
    let r := m.activate s x
    let q := activateAll m r.1 xs
    (q.1, r.2 :: q.2)

/-- `_calculateModuleOutputSequential`, validation.py:208-222 -/
def outputSequential (m : Mod S X K) : S → List (List (Sample X K)) → S × List (List K)
  | s, [] => (s, [])
  | s, seq :: seqs =>
    let r := activateAll m (m.reset s) (seq.map Sample.inp)
    let q := outputSequential m r.1 seqs
    (q.1, r.2 ++ q.2)

/-- `calculateModuleOutput`, validation.py:226-238 -/
def calculateModuleOutput (m : Mod S X K) (s : S) (d : Data X K) : S × List (List K) :=
  match d.kind with
  | .supervised => activateAll m (m.reset s) (d.rows.map Sample.inp)
  | _ => outputSequential m s (sequences d.rows d.starts)

/-- the loop of `testOnSequenceData`, validation.py:371-384; outputs and targets from number `j` on, and `summed_output` -/
def classLoop (outdim : Nat) (ends : List Int) : Nat → List (List K × List K) → List K → Except Err (List (Nat × Nat))
  | _, [], _ => .ok []
  | j, (o, t) :: rest, summed =>
    let summed := List.zipWith (· + ·) summed o
    if (j : Int) ∈ ends then do
      let a ← argmax summed
      let b ← argmax t
      let r ← classLoop outdim ends (j + 1) rest (List.replicate outdim 0)
      pure ((a, b) :: r)
    else classLoop outdim ends (j + 1) rest summed

/-- `testOnSequenceData`, validation.py:357-393 -/
def testOnSequenceData (m : Mod S X K) (s : S) (d : Data X K) : Except Err K := do
  let output := (calculateModuleOutput m s d).2
  let classes ← classLoop d.outdim (sequenceEnds d) 0 (output.zip (d.rows.map Sample.target)) (List.replicate d.outdim 0)
  Validation.classificationPerformance (classes.map Prod.fst) (classes.map Prod.snd)

/-- `ModuleValidator.classificationPerformance`, validation.py:157-168 with 185-204 and 24-34: the function for the arrays takes no importances; the number of hits is one number for each column, which `float` only takes for one column -/
def modulePerformance (m : Mod S X K) (s : S) (d : Data X K) : Except Err K :=
  let output := (calculateModuleOutput m s d).2
  match d.kind with
  | .importance => .error .typeError
  | _ =>
    if output.length ≠ d.rows.length then .error .assertion
    else if d.rows.length = 0 then .error .zeroDivision
    else if d.outdim ≠ 1 then .error .typeError
    else Validation.classificationPerformance output (d.rows.map Sample.target)

/-- `ModuleValidator.MSE`, validation.py:171-181 with 185-204 and 44-78: without samples the shapes differ -/
def moduleMSE (m : Mod S X K) (s : S) (d : Data X K) : Except Err K :=
  let output := (calculateModuleOutput m s d).2
  if d.rows.length = 0 then .error .assertion
  else match d.kind with
  | .importance => Validation.MSE output.flatten (d.rows.map Sample.target).flatten (some (d.rows.map Sample.importance).flatten)
  | _ => Validation.MSE output.flatten (d.rows.map Sample.target).flatten none

end Verif.SeqValidation
