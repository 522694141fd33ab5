import Verif.Model.DataSet
import Mathlib.Algebra.Order.Field.Basic
import Mathlib.Algebra.Order.Floor.Ring
/-
Model of the table based learners of pybrain/rl/learners/valuebased: q.py (Q), sarsa.py (SARSA), qlambda.py (QLambda), with the table
of interface.py (ActionValueTable) and structure/modules/table.py (Table).

States and actions are natural numbers (a negative one would count from the end of the table); the numbers are those of an ordered field.
A sample carries, besides state, action and reward, the number `pick` deciding the random choice among the best actions that is made
when the sample is processed.
-/
namespace Verif.ValueBased
open Verif.DataSet (Err)

/-- Table, table.py:7-34: `params` seen as `numRows × numColumns` values -/
structure Table (K : Type) where
  rows : Nat
  cols : Nat
  q : Nat → Nat → K

structure Sample (K : Type) where
  state : Nat
  action : Nat
  reward : K
  pick : Nat

section table
variable {K : Type}

/-- `getValue`, table.py:32-34 -/
def getValue (t : Table K) (s a : Nat) : Except Err K := if s < t.rows ∧ a < t.cols then .ok (t.q s a) else .error .indexError

/-- the table with one entry changed -/
def Table.set (t : Table K) (s a : Nat) (v : K) : Table K := { t with q := fun s' a' => if s' = s ∧ a' = a then v else t.q s' a' }

/-- `updateValue`, table.py:28-30 -/
def updateValue (t : Table K) (s a : Nat) (v : K) : Except Err (Table K) :=
  if s < t.rows ∧ a < t.cols then .ok (t.set s a v) else .error .indexError

/-- `initialize`, interface.py:61-63 -/
def initTable (t : Table K) (v : K) : Table K := { t with q := fun _ _ => v }

variable [LinearOrder K]

/-- `where(values == max(values))[0]`, interface.py:54: the actions whose value is the largest in the row -/
def bestActions (t : Table K) (s : Nat) : List Nat :=
  (List.range t.cols).filter (fun a => (List.range t.cols).all (fun b => decide (t.q s b ≤ t.q s a)))

/-- `getMaxAction`, interface.py:51-56: `choice` takes the entry number `pick`. Without actions `max` raises ValueError. -/
def getMaxAction (t : Table K) (s pick : Nat) : Except Err Nat :=
  if s < t.rows then
    match (bestActions t s)[pick % (bestActions t s).length]? with
    | some a => .ok a
    | none => .error .valueError
  else .error .indexError

end table

section learn
variable {K : Type} [Field K] [LinearOrder K]

/-- one update of Q, q.py:56-58: `last` is the previous sample -/
def qStep (alpha gamma : K) (t : Table K) (last x : Sample K) : Except Err (Table K) :=
  match getValue t last.state last.action with
  | .error e => .error e
  | .ok qvalue =>
    match getMaxAction t x.state x.pick with
    | .error e => .error e
    | .ok a =>
      match getValue t x.state a with
      | .error e => .error e
      | .ok maxnext => updateValue t last.state last.action (qvalue + alpha * (last.reward + gamma * maxnext - qvalue))

/-- one update of SARSA, sarsa.py:51-53 -/
def sarsaStep (alpha gamma : K) (t : Table K) (last x : Sample K) : Except Err (Table K) :=
  match getValue t last.state last.action with
  | .error e => .error e
  | .ok qvalue =>
    match getValue t x.state x.action with
    | .error e => .error e
    | .ok qnext => updateValue t last.state last.action (qvalue + alpha * (last.reward + gamma * qnext - qvalue))

/-- the inner loop of `learn`, q.py:44-63, sarsa.py:39-58: `last` holds laststate, lastaction, lastreward -/
def learnSeq (step : Table K → Sample K → Sample K → Except Err (Table K)) : Option (Sample K) → List (Sample K) → Table K → Except Err (Table K)
  | _, [], t => .ok t
  | none, x :: xs, t => learnSeq step (some x) xs t
  | some last, x :: xs, t =>
    match step t last x with
    | .error e => .error e
    | .ok t' => learnSeq step (some x) xs t'

/-- `learn` in batch mode, q.py:20-63, sarsa.py:27-58: for each sequence -/
def learn (step : Table K → Sample K → Sample K → Except Err (Table K)) : List (List (Sample K)) → Table K → Except Err (Table K)
  | [], t => .ok t
  | seq :: seqs, t =>
    match learnSeq step none seq t with
    | .error e => .error e
    | .ok t' => learn step seqs t'

/-- `learn` with batchMode = False: `samples = [[self.dataset.getSample()]]`, q.py:34-35, sarsa.py:30-31 -/
def learnOnline (step : Table K → Sample K → Sample K → Except Err (Table K)) (lastSample : Sample K) (t : Table K) : Except Err (Table K) :=
  learn step [[lastSample]] t

/-! ### QLambda -/

/-- Python's int(r): rounding towards zero -/
def pyInt [FloorRing K] (r : K) : Int := if 0 ≤ r then ⌊r⌋ else ⌈r⌉

/-- the loop of QLambda.learn, qlambda.py:28-42, going backwards: `rev` are the samples from index `i` on down, `j = n - 1 - i` -/
def qlambdaLoop [FloorRing K] (alpha gamma lambda bound : K) : Nat → List (Sample K) → Table K → Except Err (Table K)
  | j, x :: last :: rest, t =>
    let lbda := lambda ^ j
    if lbda < bound then .ok t
    else
      match getValue t last.state last.action with
      | .error e => .error e
      | .ok qvalue =>
        match getMaxAction t x.state x.pick with
        | .error e => .error e
        | .ok a =>
          match getValue t x.state a with
          | .error e => .error e
          | .ok maxnext =>
            match updateValue t last.state last.action (qvalue + alpha * lbda * ((pyInt last.reward : K) + gamma * maxnext - qvalue)) with
            | .error e => .error e
            | .ok t' => qlambdaLoop alpha gamma lambda bound (j + 1) (last :: rest) t'
  | _, _, t => .ok t

/-- `QLambda.learn`, qlambda.py:23-42: the whole data set as one sequence; `bound` is 0.0001 -/
def qlambdaLearn [FloorRing K] (alpha gamma lambda bound : K) (seqs : List (List (Sample K))) (t : Table K) : Except Err (Table K) :=
  qlambdaLoop alpha gamma lambda bound 0 seqs.flatten.reverse t

end learn
end Verif.ValueBased
