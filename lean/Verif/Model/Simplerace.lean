import Verif.Model.DataSet
import Mathlib.Algebra.Order.Field.Basic
/-
Model of pybrain/rl/environments/simplerace: simpleracetcp.py (SimpleraceEnvironment) and simplecontroller.py, with the strings and `string.split` of
Python 2 (Python 3 has no `string.split`, and `send` takes bytes there).

What the server answers is an argument. A data message consists of the words `data`, one that is not used, and 18 numbers. The distances are compared by their
squares, which is the same comparison.
-/
namespace Verif.Simplerace
open Verif.DataSet (Err)

/-- an answer of the server, simpleracetcp.py:62-66 and 86-89 -/
inductive Answer (K : Type) where
  /-- begins with `reset` -/
  | reset
  /-- `data`: the numbers of `inputs[2:20]` -/
  | data (numbers : Fin 18 → K)
  /-- anything else -/
  | other

/-- the attributes, simpleracetcp.py:13-28 and 91-98 -/
structure Env (K : Type) where
  step : Nat
  firstCarScore : Nat
  secondCarScore : Nat
  lastStepCurrentWp : K × K
  lastStepNextWp : K × K
  sensors : List K
  waitOne : Bool
  serverIsReady : Bool

section
variable {K : Type} [Field K] [LinearOrder K]

/-- `reset`, simpleracetcp.py:91-98 -/
def Env.reset (s : Env K) : Env K :=
  { s with step := 0, firstCarScore := 0, secondCarScore := 0, lastStepCurrentWp := (0, 0), lastStepNextWp := (0, 0), sensors := List.replicate 7 0, waitOne := false }

/-- `__init__`, simpleracetcp.py:22-28 -/
def Env.new : Env K := { Env.reset ⟨0, 0, 0, (0, 0), (0, 0), [], false, false⟩ with serverIsReady := false }

/-- the command, simpleracetcp.py:36-56 -/
def command (action : K × K) : Nat :=
  if action.1 > 3 / 10 then
    if action.2 > 3 / 10 then 8 else if action.2 < -(3 / 10) then 6 else 7
  else if action.1 < -(3 / 10) then
    if action.2 > 3 / 10 then 2 else if action.2 < -(3 / 10) then 0 else 1
  else
    if action.2 > 3 / 10 then 5 else if action.2 < -(3 / 10) then 3 else 4

/-- `euclideanDistance`, simpleracetcp.py:100-101, squared -/
def dist2 (p q : K × K) : K := (p.1 - q.1) ^ 2 + (p.2 - q.2) ^ 2

/-- the processing of an answer, simpleracetcp.py:66-89; the exception of line 79 is a `valueError` here -/
def Env.process (s : Env K) : Answer K → Except Err (Env K)
  | .reset => .ok { s.reset with serverIsReady := true, waitOne := true }
  | .data x =>
    let s : Env K := { s with sensors := ((List.finRange 18).take 7).map x }
    let currentWp : K × K := (x 16, x 17)
    if s.lastStepCurrentWp.1 ≠ (0 : K) ∧ currentWp.1 ≠ s.lastStepCurrentWp.1 then
      if currentWp.1 ≠ s.lastStepNextWp.1 then .error .valueError
      else if dist2 (x 7, x 8) s.lastStepCurrentWp < dist2 (x 12, x 13) s.lastStepCurrentWp then
        .ok { s with firstCarScore := s.firstCarScore + 1, lastStepCurrentWp := currentWp, step := s.step + 1 }
      else .ok { s with secondCarScore := s.secondCarScore + 1, lastStepCurrentWp := currentWp, step := s.step + 1 }
    else .ok { s with lastStepCurrentWp := currentWp, step := s.step + 1 }
  | .other => .ok s

/-- `performAction`, simpleracetcp.py:33-89: what is sent, and the new state -/
def Env.performAction (s : Env K) (action : K × K) (answer : Answer K) : Except Err (Option Nat × Env K) :=
  let sent := if s.waitOne then none else if s.serverIsReady then some (command action) else none
  let s := if s.waitOne then { s with waitOne := false } else s
  match s.process answer with
  | .error e => .error e
  | .ok s => .ok (sent, s)

/-- a history of actions and answers: what was sent in each step, and the state at the end -/
def Env.run (s : Env K) : List ((K × K) × Answer K) → Except Err (List (Option Nat) × Env K)
  | [] => .ok ([], s)
  | (a, m) :: l =>
    match s.performAction a m with
    | .error e => .error e
    | .ok (c, s) =>
      match s.run l with
      | .error e => .error e
      | .ok (cs, s) => .ok (c :: cs, s)

/-- `SimpleController`, simplecontroller.py:10-31: the action for an observation (of which two numbers are used) -/
def controller (speed angleToCurrentWP : K) : K × K := (if speed < 10 then 1 else 0, if angleToCurrentWP > 0 then -1 else 1)

end
end Verif.Simplerace
