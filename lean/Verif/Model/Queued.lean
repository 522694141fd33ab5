import Verif.Model.Agent
/-
Model of `QueuedExperiment` (pybrain/rl/experiments/queued.py) on top of the model of experiments, agents and histories (`Verif.Model.Agent`).

The learner is any function that makes a new module and explorer of the history and the old ones (it does not change the history); `clean` is what resetting the agent makes of them.
-/
namespace Verif.Queued
open Verif.DataSet (Err)
open Verif.Sequential Verif.Agent

variable {K : Type} [Zero K] {τ μ : Type}

/-- the learner: `learn` and `reset` -/
structure Learner (μ K : Type) where
  learn : SDS K → μ → μ
  clean : μ → μ

/-- `_fillQueue`, queued.py:29-33 -/
def fillQueue (t : RTask τ K) (p : Policy μ K) (l : Learner μ K) (fuel n : Nat) (x : Exp τ μ K) : Option (Except Err (Exp τ μ K)) :=
  match doEpisodes t p fuel n { x with agent := x.agent.reset, policy := l.clean x.policy } [] with
  | none => none
  | some (.error e) => some (.error e)
  | some (.ok (_, x)) => some (.ok x)

/-- `_stepQueueLoop`, queued.py:36-42: the history the learner gets, and the experiment after it -/
def stepQueueLoop (t : RTask τ K) (p : Policy μ K) (l : Learner μ K) (fuel : Nat) (x : Exp τ μ K) : Option (Except Err (SDS K × Exp τ μ K)) :=
  let m := l.learn x.agent.history x.policy
  match x.agent.history.removeSequence 0 with
  | (_, some e) => some (.error e)
  | (h, none) =>
    match doEpisodes t p fuel 1 { x with agent := { x.agent with history := h }, policy := m } [] with
    | none => none
    | some (.error e) => some (.error e)
    | some (.ok (_, y)) => some (.ok (x.agent.history, y))

/-- the loop of `run`, queued.py:23-26: the histories the learner got -/
def loop (t : RTask τ K) (p : Policy μ K) (l : Learner μ K) (fuel : Nat) : Nat → Exp τ μ K → Option (Except Err (List (SDS K) × Exp τ μ K))
  | 0, x => some (.ok ([], x))
  | c + 1, x =>
    match stepQueueLoop t p l fuel x with
    | none => none
    | some (.error e) => some (.error e)
    | some (.ok (h, y)) =>
      match loop t p l fuel c y with
      | none => none
      | some (.error e) => some (.error e)
      | some (.ok (hs, z)) => some (.ok (h :: hs, z))

/-- `run`, queued.py:13-26 -/
def run (t : RTask τ K) (p : Policy μ K) (l : Learner μ K) (fuel n c : Nat) (x : Exp τ μ K) : Option (Except Err (List (SDS K) × Exp τ μ K)) :=
  match fillQueue t p l fuel n x with
  | none => none
  | some (.error e) => some (.error e)
  | some (.ok y) => loop t p l fuel c y

end Verif.Queued
