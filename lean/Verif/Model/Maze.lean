import Verif.Model.DataSet
/-
Model of pybrain/rl/environments/mazes/maze.py (Maze), polarmaze.py (PolarMaze) and tasks/mdp.py (MDPMazeTask).

`mazeTable` is a numpy array with numpy's indexing: a negative index counts from the end, anything else out of range is an IndexError.
Random decisions are arguments.
-/
namespace Verif.Maze
open Verif.DataSet (Err)

abbrev Pos := Int × Int

/-- `mazeTable`: true marks a wall -/
structure Table where
  rows : Nat
  cols : Nat
  wall : Nat → Nat → Bool

/-- indexing of a sequence of length `n` -/
def npIndex (n : Nat) (i : Int) : Except Err Nat :=
  if 0 ≤ i ∧ i < n then .ok i.toNat
  else if -(n : Int) ≤ i ∧ i < 0 then .ok (i + n).toNat
  else .error .indexError

/-- `mazeTable[p]` -/
def Table.get (t : Table) (p : Pos) : Except Err Bool :=
  match npIndex t.rows p.1 with
  | .error e => .error e
  | .ok r =>
    match npIndex t.cols p.2 with
    | .error e => .error e
    | .ok c => .ok (t.wall r c)

/-- attributes of Maze (maze.py:28-47) and `perseusDir` of PolarMaze -/
structure Maze where
  table : Table
  goal : Pos
  initPos : List Pos
  perseus : Pos
  bang : Bool
  dir : Nat

/-- `Maze.allActions`: N, E, S, W, maze.py:40-45 -/
def allActions : List Pos := [(1, 0), (0, 1), (-1, 0), (0, -1)]

/-- `_freePos`, maze.py:65-72 -/
def freePos (t : Table) : List Pos :=
  (List.range t.rows).flatMap (fun i : Nat => ((List.range t.cols).filter (fun j => t.wall i j == false)).map (fun j : Nat => ((i : Int), (j : Int))))

/-- `Maze.__init__` with default `initPos`, maze.py:51-58: `initPos.remove(goal)` raises ValueError if the goal is a wall -/
def defaultInit (t : Table) (goal : Pos) : Except Err (List Pos) :=
  if goal ∈ freePos t then .ok ((freePos t).erase goal) else .error .valueError

/-- `reset`, maze.py:60-63 and polarmaze.py:24-26: `k` and `d` are the choices of `choice` -/
def reset (m : Maze) (k d : Nat) : Except Err Maze :=
  match m.initPos[k]? with
  | none => .error .indexError
  | some p => .ok { m with bang := false, perseus := p, dir := d % 4 }

/-- `_moveInDir`, maze.py:74-76 -/
def moveInDir (pos dir : Pos) : Pos := (pos.1 + dir.1, pos.2 + dir.2)

/-- `Maze.performAction`, maze.py:78-87. `override`: the action drawn when `random() < stochAction`. -/
def performAction (m : Maze) (override : Option Int) (action : Int) : Except Err Maze :=
  match npIndex 4 (override.getD action) with
  | .error e => .error e
  | .ok a =>
    let tmp := moveInDir m.perseus (allActions.getD a (0, 0))
    match m.table.get tmp with
    | .error e => .error e
    | .ok w => if w == false then .ok { m with perseus := tmp, bang := false } else .ok { m with bang := true }

/-- one entry of `obs`, maze.py:91-92 -/
def sense (m : Maze) (a : Pos) : Except Err Bool := m.table.get (moveInDir m.perseus a)

/-- `Maze.getSensors`, maze.py:89-97. `flips`: for which entries `random() < stochObs`. -/
def getSensors (m : Maze) (flips : List Bool) : Except Err (List Bool) :=
  match allActions.mapM (sense m) with
  | .error e => .error e
  | .ok obs => .ok (List.zipWith (fun o f => if f then !o else o) obs flips)

/-! ### PolarMaze -/

/-- `PolarMaze.performAction`, polarmaze.py:28-45; the actions Stay, Forward, TurnAround, TurnLeft, TurnRight are 0, …, 4 -/
def polarAction (m : Maze) (override : Option Int) (action : Int) : Except Err Maze :=
  match npIndex 5 (override.getD action) with
  | .error e => .error e
  | .ok act =>
    let m := { m with bang := false }
    if act = 1 then
      let tmp := moveInDir m.perseus (allActions.getD m.dir (0, 0))
      match m.table.get tmp with
      | .error e => .error e
      | .ok w => if w == false then .ok { m with perseus := tmp } else .ok { m with bang := true }
    else if act = 3 then .ok { m with dir := (m.dir + 1) % 4 }
    else if act = 4 then .ok { m with dir := (((m.dir : Int) - 1) % 4).toNat }
    else if act = 2 then .ok { m with dir := (m.dir + 2) % 4 }
    else .ok m

/-- `PolarMaze.getSensors`, polarmaze.py:47-52 -/
def polarSensors (m : Maze) (flips : List Bool) : Except Err (List Bool) :=
  match getSensors m flips with
  | .error e => .error e
  | .ok obs => .ok (obs.drop m.dir ++ obs.take m.dir)

/-! ### MDPMazeTask -/

/-- `MDPMazeTask.getObservation`, tasks/mdp.py:27-32 -/
def mdpObservation (t : Table) (perseus : Pos) : Int := perseus.1 * (t.rows : Int) + perseus.2

/-- `MDPMazeTask.getReward`, tasks/mdp.py:11-18: the reward, 1 or 0, and the maze (reset when the goal is reached) -/
def mdpReward (m : Maze) (k d : Nat) : Except Err (Nat × Maze) :=
  if m.goal = m.perseus then
    match reset m k d with
    | .error e => .error e
    | .ok m' => .ok (1, m')
  else .ok (0, m)

end Verif.Maze
