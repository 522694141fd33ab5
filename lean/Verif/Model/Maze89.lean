import Verif.Model.MazeTask
/-
Model of pybrain/rl/environments/mazes/tasks/maze89state.py (EightyNineStateMaze): a MazeTask (Verif.Model.MazeTask) whose environment is
the PolarMaze of Verif.Model.Maze.

The noise of the sensors does not change the maze and is not modelled here (C37 has it); the replacement of actions is an argument.
-/
namespace Verif.Maze89
open Verif.DataSet (Err)
open Verif.Maze Verif.MazeTask

/-- `topology`, maze89state.py:21-27 -/
def table : Table :=
  tableOf [[1, 1, 1, 1, 1, 1, 1, 1, 1],
           [1, 1, 0, 0, 0, 0, 0, 1, 1],
           [1, 0, 0, 1, 0, 1, 0, 0, 1],
           [1, 1, 0, 1, 0, 1, 0, 1, 1],
           [1, 0, 0, 1, 0, 1, 0, 0, 1],
           [1, 1, 0, 0, 0, 0, 0, 1, 1],
           [1, 1, 1, 1, 1, 1, 1, 1, 1]]

/-- maze89state.py:28 -/
def goal : Pos := (2, 7)

/-- maze.py:13-15, pomdp.py:21, episodic.py:23: no value is overridden; a discount of `None` is written 0 -/
def cfg : Cfg := { bangPenalty := 0, defaultPenalty := 0, finalReward := 1, discount := 0, maxSteps := none }

/-- `EightyNineStateMaze()`, tasks/maze.py:29-34, with the choices `k` and `d` of `PolarMaze.reset` -/
def initial (k d : Nat) : Except Err St :=
  match defaultInit table goal with
  | .error e => .error e
  | .ok l => resetTask { env := { table := table, goal := goal, initPos := l, perseus := goal, bang := false, dir := 0 }, steps := 0, samples := 0, cum := 0 } k d

/-- `performAction` with an index: pomdp.py:47-53, episodic.py:39-43 and polarmaze.py:28-45 -/
def perform (s : St) (override : Option Int) (action : Int) : Except Err St :=
  match polarAction s.env override action with
  | .error e => .error e
  | .ok m => .ok (addReward cfg { s with env := m, steps := s.steps + 1, samples := s.samples + 1 } (getReward cfg m))

/-- any number of actions -/
def run : St → List (Option Int × Int) → Except Err St
  | s, [] => .ok s
  | s, x :: xs => match perform s x.1 x.2 with
    | .error e => .error e
    | .ok s' => run s' xs

end Verif.Maze89
