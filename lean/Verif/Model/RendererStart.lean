import Mathlib.Data.Nat.Notation
import Mathlib.Logic.Function.Basic
/-
Model of `Renderer.start` of pybrain/rl/environments/renderer.py, called by any number of threads at any time.

`Thread.start` of the standard library raises `RuntimeError` for a thread that has been started before; this test and the start are taken as one step, and so is `isAlive`. (`isAlive` is called `is_alive` in Python 3.9 and
later, where `start` always fails; the model is about versions which have `isAlive`.)
-/
namespace Verif.RendererStart

/-- where a caller is in `start` -/
inductive Pc where
  | outside
  | check
  | start
  | raised
deriving DecidableEq, Repr

/-- the thread of the renderer, how often `_render` has been entered, and the callers -/
structure State where
  started : Bool
  alive : Bool
  renders : ℕ
  callers : ℕ → Pc

/-- `__init__`, renderer.py:14-16 -/
def init : State := ⟨false, false, 0, fun _ => .outside⟩

/-- `call i`: the caller `i` calls `start`; `step i`: it makes its next step; `finish`: `_render` returns -/
inductive Ev where
  | call (i : ℕ)
  | step (i : ℕ)
  | finish
deriving DecidableEq, Repr

/-- `start` and `run`, renderer.py:27-34; a caller that got an exception stays there -/
def step (s : State) : Ev → State
  | .call i =>
    match s.callers i with
    | .outside => { s with callers := Function.update s.callers i .check }
    | _ => s
  | .step i =>
    match s.callers i with
    | .outside => s
    | .check => if s.alive then { s with callers := Function.update s.callers i .outside } else { s with callers := Function.update s.callers i .start }
    | .start =>
      if s.started then { s with callers := Function.update s.callers i .raised }
      else { s with started := true, alive := true, renders := s.renders + 1, callers := Function.update s.callers i .outside }
    | .raised => s
  | .finish => { s with alive := false }

def run (s : State) (schedule : List Ev) : State := schedule.foldl step s

end Verif.RendererStart
