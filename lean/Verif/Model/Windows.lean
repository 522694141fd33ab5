import Verif.Model.DataSet
import Verif.Model.Py
/-
Model of `convertSequenceToTimeWindows` (`pybrain/tools/datasettools.py`).

The sequential dataset is given by its three arrays: `input` and `target` (one row per sample) and
`sequence_index` (the start of each sequence), as laid out by `Verif/Model/Sequential.lean`.
-/
namespace Verif.Windows

open Verif.DataSet (Err)

variable {K : Type}

/-- The arrays of a `SequentialDataSet`. -/
structure Arrays (K : Type) where
  input : List (List K)
  target : List (List K)
  seqIndex : List Nat

/-- `a[s:e, :]` with non-negative bounds (datasettools.py:28-29). -/
def rows {α : Type} (l : List α) (s e : Nat) : List α := (l.take e).drop s

/-- The inner loop (datasettools.py:32-35): `for k in range(winsize, input.shape[0], winsize)`; `fuel` bounds
the number of passes and is at least the length of the sequence. -/
def cutLoop (input target : List (List K)) (w : Nat) : Nat → Nat → Except Err (List (List K × List K))
  | 0, _ => .ok []
  | fuel + 1, k =>
    if k < input.length then
      match target[k - 1]? with
      | none => .error .indexError
      | some t => match cutLoop input target w fuel (k + w) with
        | .error e => .error e
        | .ok more => .ok (((rows input (k - w) k).flatten, t) :: more)
    else .ok []

/-- The windows of one sequence (datasettools.py:32-35); `range` with step zero raises `ValueError`. -/
def cut (input target : List (List K)) (w : Nat) : Except Err (List (List K × List K)) :=
  if w = 0 then .error .valueError else cutLoop input target w input.length w

/-- The outer loop (datasettools.py:26-37) over the consecutive entries of `si`. -/
def convertLoop (ds : Arrays K) (w : Nat) : List Nat → Except Err (List (List K × List K))
  | s :: e :: si =>
    match cut (rows ds.input s e) (rows ds.target s e) w with
    | .error err => .error err
    | .ok now => match convertLoop ds w (e :: si) with
      | .error err => .error err
      | .ok more => .ok (now ++ more)
  | _ => .ok []

/-- `convertSequenceToTimeWindows` (datasettools.py:11-42): the samples of the new dataset.  `si` is the
sequence index followed by `endmarker['sequence_index']`, which is the *number of sequences*. -/
def convert (ds : Arrays K) (w : Nat) : Except Err (List (List K × List K)) :=
  convertLoop ds w (ds.seqIndex ++ [ds.seqIndex.length])

end Verif.Windows
