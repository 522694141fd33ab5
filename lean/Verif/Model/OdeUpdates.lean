import Mathlib.Data.Nat.Notation
import Mathlib.Logic.Function.Basic
/-
Model of the threads that send the state of an ODE world to its viewers: `step` and `updateClients` of pybrain/rl/environments/ode/environment.py.

A message is made of `n` values (position and rotation of each body), which are read one after the other; values that do not change (colour, sizes, planes) are not modelled. Each read, each operation on the lock, each
step of the world and each message is one step; the environment and any number of threads of `updateClients` make their steps in any order. There is at least one client, and `listen` keeps it. A value is represented by the number of steps of the
world so far. Pauses, resets and the sensors are not modelled.
-/
namespace Verif.OdeUpdates

/-- steps of the environment: `self.world.step` and the test of `updateDone` -/
inductive Instr where
  | step
  | test
deriving DecidableEq, Repr

/-- `k` calls of `step`, environment.py:499-525 -/
def calls (k : ℕ) : List Instr := (List.replicate k [Instr.step, .test]).flatten

/-- where a thread is in `updateClients`, with the values of the message so far; `crashed` has left with an exception -/
inductive Pc where
  | start
  | tryLock
  | build (l : List ℕ)
  | listen (l : List ℕ)
  | send (l : List ℕ)
  | release
  | setDone
  | ended
  | crashed
deriving DecidableEq, Repr

/-- `threads i` is the place of the thread number `i`, `ended` for those that have not been started -/
structure State where
  world : ℕ
  updateDone : Bool
  lock : Option ℕ
  env : List Instr
  threads : ℕ → Pc
  started : ℕ
  sent : List (List ℕ)

/-- `__init__`, environment.py:36-41; `step` is going to be called `k` times -/
def init (k : ℕ) : State := ⟨0, true, none, calls k, fun _ => .ended, 0, []⟩

/-- a step of the environment, environment.py:507-521 -/
def envStep (s : State) : State :=
  match s.env with
  | [] => s
  | .step :: is => { s with world := s.world + 1, env := is }
  | .test :: is =>
    if s.updateDone then { s with threads := Function.update s.threads s.started .start, started := s.started + 1, env := is }
    else { s with env := is }

/-- a step of `updateClients`, environment.py:438-497 -/
def threadStep (n : ℕ) (s : State) (i : ℕ) : State :=
  match s.threads i with
  | .start => { s with updateDone := false, threads := Function.update s.threads i .tryLock }
  | .tryLock =>
    if s.lock = none then { s with lock := some i, threads := Function.update s.threads i (.build []) }
    else { s with threads := Function.update s.threads i .ended }
  | .build l =>
    if l.length < n then { s with threads := Function.update s.threads i (.build (l ++ [s.world])) }
    else { s with threads := Function.update s.threads i (.listen l) }
  | .listen l => { s with threads := Function.update s.threads i (.send l) }
  | .send l => { s with sent := s.sent ++ [l], threads := Function.update s.threads i .release }
  | .release => { s with lock := none, threads := Function.update s.threads i .setDone }
  | .setDone => { s with updateDone := true, threads := Function.update s.threads i .ended }
  | .ended => s
  | .crashed => s

/-- an exception in `listen` or `send`: nothing is released -/
def crash (s : State) (i : ℕ) : State :=
  match s.threads i with
  | .listen _ => { s with threads := Function.update s.threads i .crashed }
  | .send _ => { s with threads := Function.update s.threads i .crashed }
  | _ => s

/-- who makes the next step, or crashes -/
inductive Ev where
  | env
  | thread (i : ℕ)
  | crash (i : ℕ)
deriving DecidableEq, Repr

def step (n : ℕ) (s : State) : Ev → State
  | .env => envStep s
  | .thread i => threadStep n s i
  | .crash i => crash s i

def run (n : ℕ) (s : State) (schedule : List Ev) : State := schedule.foldl (step n) s

end Verif.OdeUpdates
