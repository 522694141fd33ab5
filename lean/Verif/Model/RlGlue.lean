import Verif.Model.Agent
import Std.Data.String.ToNat
import Mathlib.Algebra.Field.Defs
/-
Model of pybrain/tools/rlgluebridge.py: RlglueAgentAdapter, BenchmarkingAgent and RlCompBenchmark.run.

The actions that the module and the learner's exploration choose are part of the messages. The processes and sockets of the competition are not modelled: a
test of an agent either ends and is saved, or the whole run ends with it. File names are lists of characters.
-/
namespace Verif.RlGlue
open Verif.DataSet (Err)
open Verif.Agent
open Verif.Sequential (SDS)

/-- what RL-Glue tells an agent, with the action the agent chooses in reply -/
inductive Message (K : Type) where
  | init
  | start (obs action : List K)
  | step (reward : K) (obs action : List K)
  | stop (reward : K)
  | cleanup

/-- an adapter, rlgluebridge.py:84-91; `learned` is ghost: the histories in which the learner was called -/
structure Adapter (K : Type) where
  agent : LAgent K
  learnCycle : Nat
  episodeCount : Nat
  learned : List (SDS K)

section
variable {K : Type} [Zero K]

/-- `__init__`, rlgluebridge.py:84-91; `learnCycle` is an attribute the user may change -/
def Adapter.new (agent : LAgent K) (learnCycle : Nat) : Adapter K := ⟨agent, learnCycle, 1, []⟩

/-- calls on the agent, up to the first exception -/
def callsE (g : LAgent K) : List (Call K) → Except Err (LAgent K)
  | [] => .ok g
  | c :: cs =>
    match g.call c with
    | (g, none) => callsE g cs
    | (_, some e) => .error e

/-- the messages, rlgluebridge.py:93-145 and 158-180 -/
def Adapter.receive (x : Adapter K) : Message K → Except Err (Adapter K)
  | .init =>
    match callsE x.agent [.reset] with
    | .error e => .error e
    | .ok g => .ok { x with agent := g }
  | .start o a =>
    match callsE x.agent [.observe o, .act a] with
    | .error e => .error e
    | .ok g => .ok { x with agent := g }
  | .step r o a =>
    match callsE x.agent [.reward r, .observe o, .act a] with
    | .error e => .error e
    | .ok g => .ok { x with agent := g }
  | .stop r =>
    match callsE x.agent [.reward r, .newEpisode] with
    | .error e => .error e
    | .ok g =>
      if x.learnCycle = 0 then .error .zeroDivision
      else if (x.episodeCount + 1) % x.learnCycle = 0 then .ok { agent := g.reset, learnCycle := x.learnCycle, episodeCount := x.episodeCount + 1, learned := x.learned ++ [g.history] }
      else .ok { x with agent := g, episodeCount := x.episodeCount + 1 }
  | .cleanup => .ok x

/-- a session -/
def Adapter.session (x : Adapter K) : List (Message K) → Except Err (Adapter K)
  | [] => .ok x
  | m :: ms =>
    match x.receive m with
    | .error e => .error e
    | .ok x => x.session ms
end

/-! ### the benchmarking agent -/

/-- the attributes of `BenchmarkingAgent`, rlgluebridge.py:347-357: the linked rows of the benchmark and the rewards of the episode -/
structure Bench (K : Type) where
  rows : List (K × Nat)
  rewards : List K

/-- `giveReward`, rlgluebridge.py:359-361 -/
def Bench.giveReward {K : Type} (b : Bench K) (r : K) : Bench K := { b with rewards := b.rewards ++ [r] }

/-- `newEpisode`, rlgluebridge.py:363-368 -/
def Bench.newEpisode {K : Type} [Field K] (b : Bench K) : Except Err (Bench K) :=
  if b.rewards.length = 0 then .error .zeroDivision
  else .ok ⟨b.rows ++ [(b.rewards.sum / (b.rewards.length : K), b.rewards.length)], []⟩

/-- a message as the benchmarking agent inside the adapter sees it, rlgluebridge.py:113-139 -/
def Bench.receive {K : Type} [Field K] (b : Bench K) : Message K → Except Err (Bench K)
  | .step r _ _ => .ok (b.giveReward r)
  | .stop r => (b.giveReward r).newEpisode
  | _ => .ok b

/-- a session -/
def Bench.session {K : Type} [Field K] (b : Bench K) : List (Message K) → Except Err (Bench K)
  | [] => .ok b
  | m :: ms =>
    match b.receive m with
    | .error e => .error e
    | .ok b => b.session ms

/-! ### benchmarks -/

/-- the name of the file for a loop of an agent, rlgluebridge.py:305 -/
def fileName (name : List Char) (j : Nat) : List Char := name ++ '-' :: (Nat.repr j).toList

/-- `index`, rlgluebridge.py:292: what follows the last dash, as a number; `int` also accepts signs and spaces, which is not modelled -/
def index (f : List Char) : Except Err Nat :=
  match (String.ofList (f.reverse.takeWhile (fun c => c != '-')).reverse).toNat? with
  | none => .error .valueError
  | some j => .ok j

/-- `done`, rlgluebridge.py:293-294 -/
def doneLoops (name : List Char) (files : List (List Char)) : Except Err (List Nat) :=
  (files.filter fun f => (name ++ ['-']).isPrefixOf f).mapM index

/-- the tests of one agent, rlgluebridge.py:296-305: at most `budget` more before the run is killed. The result: the tests that ended, the files, the budget
that is left and whether the run was killed. -/
def runLoops (name : List Char) : List Nat → List (List Char) → Nat → List (List Char × Nat) × List (List Char) × Nat × Bool
  | [], files, budget => ([], files, budget, false)
  | _ :: _, files, 0 => ([], files, 0, true)
  | j :: js, files, budget + 1 =>
    let files := if files.contains (fileName name j) then files else files ++ [fileName name j]
    let r := runLoops name js files budget
    ((name, j) :: r.1, r.2)

/-- `run`, rlgluebridge.py:271-305, for a directory with the given files -/
def run (loops : Nat) (overwrite : Bool) : List (List Char) → List (List Char) → Nat → Except Err (List (List Char × Nat) × List (List Char))
  | [], files, _ => .ok ([], files)
  | name :: names, files, budget =>
    match (if overwrite then .ok [] else doneLoops name files) with
    | .error e => .error e
    | .ok done =>
      let r := runLoops name ((List.range loops).filter fun j => !done.contains j) files budget
      if r.2.2.2 then .ok (r.1, r.2.1)
      else
        match run loops overwrite names r.2.1 r.2.2.1 with
        | .error e => .error e
        | .ok q => .ok (r.1 ++ q.1, q.2)

end Verif.RlGlue
