import Mathlib.Data.Nat.Notation
import Mathlib.Logic.Function.Basic
/-
Model of the threads that send the state of an environment to its viewers: `performAction`, `reset` and `updateRenderer` of pybrain/rl/environments/shipsteer/shipsteer.py with the decorator
`threaded` of pybrain/utilities.py. The lock and the flag are used in the same way in ode/environment.py (`OdeUpdates`) and flexcube/environment.py, but there a message is made of several values; for the flexible cube this is not modelled.

Each read or write of an attribute, each operation on the lock and each packet is one step; the environment and any number of threads of `updateRenderer` make their steps in any order. There is at least one client (`clients > 0`), and `listen`
keeps it. The state is represented by the number of assignments to `sensors` so far. Pauses are not modelled.
-/
namespace Verif.UpdateThreads

/-- calls of `performAction` and `reset` -/
inductive Op where
  | action
  | reset
deriving DecidableEq, Repr

/-- steps of the environment -/
inductive Instr where
  | assign
  | test
  | signal
deriving DecidableEq, Repr

/-- `reset` (shipsteer.py:71-79) and `performAction` (shipsteer.py:96-105, with `step`) -/
def compile : Op → List Instr
  | .action => [.assign, .test]
  | .reset => [.assign, .signal]

/-- where a thread is in `updateRenderer`; `send k` has evaluated the argument of `send`, and `crashed` has left with an exception -/
inductive Pc where
  | start
  | tryLock
  | listen
  | read
  | send (k : ℕ)
  | release
  | setDone
  | ended
  | crashed
deriving DecidableEq, Repr

inductive Packet where
  | state (k : ℕ)
  | reset
deriving DecidableEq, Repr

/-- `threads i` is the place of the thread number `i`, `ended` for those that have not been started -/
structure State where
  sensors : ℕ
  updateDone : Bool
  lock : Option ℕ
  env : List Instr
  threads : ℕ → Pc
  started : ℕ
  packets : List Packet

/-- `__init__`, shipsteer.py:31-41; the environment is going to be used with `ops` -/
def init (ops : List Op) : State := ⟨0, true, none, ops.flatMap compile, fun _ => .ended, 0, []⟩

/-- a step of the environment; `updateRenderer()` starts a thread (utilities.py:263-274) -/
def envStep (s : State) : State :=
  match s.env with
  | [] => s
  | .assign :: is => { s with sensors := s.sensors + 1, env := is }
  | .test :: is =>
    if s.updateDone then { s with threads := Function.update s.threads s.started .start, started := s.started + 1, env := is }
    else { s with env := is }
  | .signal :: is => { s with packets := s.packets ++ [.reset], env := is }

/-- a step of `updateRenderer`, shipsteer.py:107-119 -/
def threadStep (s : State) (i : ℕ) : State :=
  match s.threads i with
  | .start => { s with updateDone := false, threads := Function.update s.threads i .tryLock }
  | .tryLock =>
    if s.lock = none then { s with lock := some i, threads := Function.update s.threads i .listen }
    else { s with threads := Function.update s.threads i .ended }
  | .listen => { s with threads := Function.update s.threads i .read }
  | .read => { s with threads := Function.update s.threads i (.send s.sensors) }
  | .send k => { s with packets := s.packets ++ [.state k], threads := Function.update s.threads i .release }
  | .release => { s with lock := none, threads := Function.update s.threads i .setDone }
  | .setDone => { s with updateDone := true, threads := Function.update s.threads i .ended }
  | .ended => s
  | .crashed => s

/-- an exception in `listen` or `send`: nothing is released -/
def crash (s : State) (i : ℕ) : State :=
  match s.threads i with
  | .listen => { s with threads := Function.update s.threads i .crashed }
  | .send _ => { s with threads := Function.update s.threads i .crashed }
  | _ => s

/-- who makes the next step, or crashes -/
inductive Ev where
  | env
  | thread (i : ℕ)
  | crash (i : ℕ)
deriving DecidableEq, Repr

def step (s : State) : Ev → State
  | .env => envStep s
  | .thread i => threadStep s i
  | .crash i => crash s i

def run (s : State) (schedule : List Ev) : State := schedule.foldl step s

end Verif.UpdateThreads
