import Verif.Model.Maze
import Mathlib.Data.Real.Basic
/-
Model of pybrain/rl/environments/mazes/tasks: maze.py (MazeTask), cheesemaze.py (CheeseMaze), maze4x3.py (FourByThreeMaze),
tmaze.py (TMaze), shuttle.py (ShuttleDocking), tiger.py (TigerTask), with the parts of pomdp.py and ../../episodic.py they use.

The environment is the maze of Verif.Model.Maze. Rewards are rational numbers (floats idealised); random numbers and choices are arguments.
Actions are indices: the conversion of an action given as an array by `drawIndex` (pomdp.py:50-51) is the subject of C77.
`setArgs` (attributes given by keyword) is not modelled: the attributes have their class values, except where they are arguments here.
-/
namespace Verif.MazeTask
open Verif.DataSet (Err)
open Verif.Maze

/-- class attributes of a task, maze.py:13-15, pomdp.py:21, episodic.py:23. A `discount` of `None` is written 0: both are false. -/
structure Cfg where
  bangPenalty : ℚ
  defaultPenalty : ℚ
  finalReward : ℚ
  discount : ℚ
  maxSteps : Option Nat

/-- attributes of the task object: the environment, `steps` (pomdp.py:28), `samples` and `cumreward` (episodic.py:17-20) -/
structure St where
  env : Maze
  steps : Nat
  samples : Nat
  cum : ℚ

/-- `MazeTask.getReward`, maze.py:36-42 -/
def getReward (c : Cfg) (m : Maze) : ℚ :=
  if m.perseus = m.goal then c.finalReward else if m.bang then c.bangPenalty else c.defaultPenalty

/-- `MazeTask.isFinished`, maze.py:44-45, and `POMDPTask.isFinished`, pomdp.py:42-45 -/
def isFinished (c : Cfg) (s : St) : Bool :=
  decide (s.env.perseus = s.env.goal) || (match c.maxSteps with
    | none => false
    | some n => decide (n ≤ s.steps))

/-- `addReward`, episodic.py:45-51, given the value of `getReward()` -/
def addReward (c : Cfg) (s : St) (r : ℚ) : St :=
  if c.discount ≠ 0 then { s with cum := s.cum + c.discount ^ s.samples * r } else { s with cum := s.cum + r }

/-- `POMDPTask.reset`, pomdp.py:38-40, and `EpisodicTask.reset`, episodic.py:27-33: `k` and `d` are the choices in the environment's reset -/
def resetTask (s : St) (k d : Nat) : Except Err St :=
  match Maze.reset s.env k d with
  | .error e => .error e
  | .ok m => .ok { env := m, steps := 0, samples := 0, cum := 0 }

/-- `POMDPTask.performAction` with an index, pomdp.py:47-53, and `EpisodicTask.performAction`, episodic.py:39-43; `reward` is the task's `getReward` -/
def perform (c : Cfg) (reward : Maze → ℚ) (s : St) (override : Option Int) (action : Int) : Except Err St :=
  match Maze.performAction s.env override action with
  | .error e => .error e
  | .ok m => .ok (addReward c { s with env := m, steps := s.steps + 1, samples := s.samples + 1 } (reward m))

/-- `topology` given as a list of rows -/
def tableOf (l : List (List Nat)) : Table :=
  { rows := l.length, cols := (l.headD []).length, wall := fun r c => (l.getD r []).getD c 0 == 1 }

/-! ### CheeseMaze -/

/-- cheesemaze.py:20-24 -/
def cheeseTable : Table :=
  tableOf [[1, 1, 1, 1, 1, 1, 1],
           [1, 0, 1, 0, 1, 0, 1],
           [1, 0, 1, 0, 1, 0, 1],
           [1, 0, 0, 0, 0, 0, 1],
           [1, 1, 1, 1, 1, 1, 1]]

/-- cheesemaze.py:25 -/
def cheeseGoal : Pos := (1, 3)

/-- the position of the 1 in `CheeseMaze.getObservation`, cheesemaze.py:31-45, given whether perseus is on the goal and the sensors; `none`: no entry is set -/
def cheeseIndex (atGoal : Bool) (obs : List Bool) : Option Nat :=
  let o := fun i => obs.getD i false
  if atGoal then some 6
  else if obs.count true = 3 then some 0
  else if obs.count true = 1 then some 5
  else if o 0 = o 1 then some 1
  else if o 0 = o 3 then some 2
  else if o 0 = o 2 then (if o 0 = true then some 3 else some 4)
  else none

/-- `res`, cheesemaze.py:29-46: zeros with a 1 at the index -/
def oneAt (n : Nat) (i : Option Nat) : List Nat :=
  match i with
  | none => List.replicate n 0
  | some k => (List.replicate n 0).set k 1

/-- `CheeseMaze.getObservation`, cheesemaze.py:27-46 -/
def cheeseObservation (m : Maze) (flips : List Bool) : Except Err (List Nat) :=
  match getSensors m flips with
  | .error e => .error e
  | .ok obs => .ok (oneAt 7 (cheeseIndex (decide (m.perseus = m.goal)) obs))

/-! ### FourByThreeMaze -/

/-- maze4x3.py:29-33 -/
def fourTable : Table :=
  tableOf [[1, 1, 1, 1, 1, 1],
           [1, 0, 0, 0, 0, 1],
           [1, 0, 1, 0, 0, 1],
           [1, 0, 0, 0, 0, 1],
           [1, 1, 1, 1, 1, 1]]

/-- maze4x3.py:28 -/
def fourInit : List Pos := [(1, 1), (1, 2), (1, 3), (2, 1), (3, 1), (3, 2), (2, 3), (3, 3), (1, 4)]

/-- maze4x3.py:34 -/
def fourGoal : Pos := (3, 4)

/-- maze4x3.py:20-23 and maze.py:15 -/
def fourCfg : Cfg := { bangPenalty := -1 / 25, defaultPenalty := -1 / 25, finalReward := 1, discount := 19 / 20, maxSteps := none }

/-- the attributes of FourByThreeMaze -/
structure Four where
  base : St
  bad : Bool
  minReward : ℚ

/-- `FourByThreeMaze()`: `MazeTask.__init__`, maze.py:29-34, ending with `reset()`; the class attribute `minReward = -1` is hidden by line 33 -/
def fourInitial (k d : Nat) : Except Err Four :=
  match resetTask { env := { table := fourTable, goal := fourGoal, initPos := fourInit, perseus := (1, 1), bang := false, dir := 0 },
                    steps := 0, samples := 0, cum := 0 } k d with
  | .error e => .error e
  | .ok s => .ok { base := s, bad := false, minReward := min fourCfg.bangPenalty fourCfg.defaultPenalty }

/-- `FourByThreeMaze.reset`, maze4x3.py:36-38 -/
def fourReset (s : Four) (k d : Nat) : Except Err Four :=
  match resetTask s.base k d with
  | .error e => .error e
  | .ok b => .ok { s with base := b, bad := false }

/-- `poss`, maze4x3.py:41-44: `action - a % 4 != 2` is `action - (a % 4) != 2` -/
def fourPoss (action : Int) : List Nat := (List.range 4).filter (fun a => decide (action - (a : Int) % 4 ≠ 2))

/-- the action handed on by `FourByThreeMaze.performAction`, maze4x3.py:45-48: `r` is the value of `random()`, `k` the index drawn by `choice` -/
noncomputable def fourChoice (action : Int) (r : ℝ) (k : Nat) : Int :=
  if r < 1 / 10 * ((fourPoss action).length : ℝ) then (((fourPoss action).getD k 0 : Nat) : Int) else action

/-- `FourByThreeMaze.getReward`, maze4x3.py:50-54 -/
def fourReward (bad : Bool) (minReward : ℚ) (m : Maze) : ℚ := if bad then minReward else getReward fourCfg m

/-- `FourByThreeMaze.performAction`, maze4x3.py:40-48. (`stochAction` is also handed to the maze, which may override the action again.) -/
noncomputable def fourPerform (s : Four) (override : Option Int) (action : Int) (r : ℝ) (k : Nat) : Except Err Four :=
  match perform fourCfg (fourReward s.bad s.minReward) s.base override (fourChoice action r k) with
  | .error e => .error e
  | .ok b => .ok { s with base := b }

/-! ### TMaze -/

/-- `columns`, tmaze.py:31-35 -/
def tColumns (L : Nat) : List (List Nat) :=
  [[1, 1, 1, 1, 1]] ++ List.replicate L [1, 1, 0, 1, 1] ++ [[1, 0, 0, 0, 1]] ++ [[1, 1, 1, 1, 1]]

/-- `self.topology = array(columns).T`, tmaze.py:36 -/
def tTable (L : Nat) : Table :=
  { rows := 5, cols := (tColumns L).length, wall := fun r c => ((tColumns L).getD c []).getD r 0 == 1 }

/-- tmaze.py:20-24 and maze.py:14 -/
def tCfg : Cfg := { bangPenalty := -1 / 10, defaultPenalty := 0, finalReward := 4, discount := 49 / 50, maxSteps := none }

/-- the attributes of TMaze -/
structure TMaze where
  length : Nat
  base : St
  specialObs : Bool

/-- `TMaze.reset`, tmaze.py:39-46: `goUp` is the choice, `d` is irrelevant (no direction) -/
def tReset (t : TMaze) (goUp : Bool) : Except Err TMaze :=
  match resetTask t.base 0 0 with
  | .error e => .error e
  | .ok b => .ok { t with specialObs := goUp,
                          base := { b with env := { b.env with goal := if goUp then (3, (t.length : Int) + 1) else (1, (t.length : Int) + 1) } } }

/-- `TMaze(length=L)`, tmaze.py:28-37 and maze.py:29-34. The maze is built without a goal (`None`), written (0, 0) here, which is no position either. -/
def tInitial (L : Nat) (goUp : Bool) : Except Err TMaze :=
  tReset { length := L, specialObs := goUp,
           base := { env := { table := tTable L, goal := (0, 0), initPos := [(2, 1)], perseus := (2, 1), bang := false, dir := 0 },
                     steps := 0, samples := 0, cum := 0 } } goUp

/-- the position of the 1 in `TMaze.getObservation`, tmaze.py:48-59 -/
def tIndex (t : TMaze) : Nat :=
  if t.base.env.perseus = t.base.env.initPos.getD 0 (0, 0) then (if t.specialObs then 0 else 1)
  else if t.base.env.perseus.2 = (t.length : Int) + 1 then 2
  else 3

/-- `TMaze.getObservation`, tmaze.py:48-59 -/
def tObservation (t : TMaze) : List Nat := oneAt 4 (some (tIndex t))

/-- `TMaze.getReward`, tmaze.py:61-67: the reward, and the environment, in which perseus may have been moved to the goal -/
def tReward (L : Nat) (m : Maze) : ℚ × Maze :=
  if m.perseus.2 = (L : Int) + 1 ∧ |m.perseus.1 - m.goal.1| = 2 then (tCfg.bangPenalty, { m with perseus := m.goal })
  else (getReward tCfg m, m)

/-- `performAction` of a TMaze: pomdp.py:52-53, episodic.py:39-51 with `TMaze.getReward`. The default `stochAction` is 0: the action is executed. -/
def tPerform (t : TMaze) (action : Int) : Except Err TMaze :=
  match Maze.performAction t.base.env none action with
  | .error e => .error e
  | .ok m =>
    let rm := tReward t.length m
    .ok { t with base := addReward tCfg { t.base with env := rm.2, steps := t.base.steps + 1, samples := t.base.samples + 1 } rm.1 }

/-- `MazeTask.isFinished` for a TMaze -/
def tFinished (t : TMaze) : Bool := isFinished tCfg t.base

/-! ### ShuttleDocking -/

/-- shuttle.py:29-31 -/
def shuttleTable : Table := tableOf [[1, 1, 1, 1, 1, 1, 1], [1, 0, 0, 0, 0, 0, 1], [1, 1, 1, 1, 1, 1, 1]]

/-- shuttle.py:21-26 and maze.py:14 -/
def shuttleCfg : Cfg := { bangPenalty := -3, defaultPenalty := 0, finalReward := 10, discount := 19 / 20, maxSteps := none }

/-- `ShuttleDocking.reset`, shuttle.py:38-40 -/
def shuttleReset (s : St) (k d : Nat) : Except Err St :=
  match resetTask s k d with
  | .error e => .error e
  | .ok s => .ok { s with env := { s.env with dir := 1 } }

/-- `ShuttleDocking()`, maze.py:29-34 -/
def shuttleInitial : Except Err St :=
  shuttleReset { env := { table := shuttleTable, goal := (1, 5), initPos := [(1, 1)], perseus := (1, 1), bang := false, dir := 0 },
                 steps := 0, samples := 0, cum := 0 } 0 0

/-- `_turn`, shuttle.py:89-90 -/
def shuttleTurn (m : Maze) : Except Err Maze := polarAction m none 2

/-- `_backup`, shuttle.py:84-87 -/
def shuttleBackup (m : Maze) : Except Err Maze := do
  let m ← polarAction m none 2
  let m ← polarAction m none 1
  polarAction m none 2

/-- `_forward`, shuttle.py:92-97: the environment is told to turn around -/
def shuttleForward (m : Maze) : Except Err Maze := do
  let old := m.perseus
  let m ← polarAction m none 2
  if m.perseus = m.goal ∨ m.perseus = m.initPos.getD 0 (0, 0) then .ok { m with perseus := old, bang := true } else .ok m

/-- what `ShuttleDocking.performAction` does to the environment, shuttle.py:60-82 -/
noncomputable def shuttleMove (m : Maze) (action : Int) (r : ℝ) : Except Err Maze :=
  if action = 2 then shuttleTurn m
  else if action = 1 then shuttleForward m
  else if m.perseus.2 = 3 then
    if r < 1 / 10 then shuttleTurn m else if r < 9 / 10 then shuttleBackup m else .ok m
  else if (m.perseus.2 = 2 ∧ m.dir = 3) ∨ (m.perseus.2 = 4 ∧ m.dir = 1) then
    if r < 3 / 10 then shuttleTurn m else if r < 6 / 10 then shuttleBackup m else .ok m
  else if r < 7 / 10 then shuttleBackup m else .ok m

/-- `ShuttleDocking.performAction`, shuttle.py:58-82: no reward is added -/
noncomputable def shuttlePerform (s : St) (action : Int) (r : ℝ) : Except Err St :=
  match shuttleMove s.env action r with
  | .error e => .error e
  | .ok m => .ok { s with env := m, steps := s.steps + 1 }

/-- the position of the 1 in `ShuttleDocking.getObservation`, shuttle.py:42-56 -/
noncomputable def shuttleIndex (m : Maze) (r : ℝ) : Nat :=
  if m.perseus = m.goal then 4
  else if m.perseus = m.initPos.getD 0 (0, 0) then 0
  else if m.perseus.2 = 3 then (if 7 / 10 < r then m.dir else (m.dir + 2) % 4)
  else (m.dir + 2) % 4

/-! ### TigerTask -/

/-- attributes of TigerTask, tiger.py:25-30 -/
structure Tiger where
  tigerLeft : Bool
  done : Bool
  nextReward : ℚ
  steps : Nat
  cum : ℚ

/-- `TigerTask.reset`, tiger.py:25-30: `left` is the choice -/
def tigerReset (left : Bool) : Tiger := { steps := 0, cum := 0, tigerLeft := left, done := false, nextReward := -1 }

/-- `TigerTask.performAction`, tiger.py:32-40; the actions Listen, OpenLeft, OpenRight are 0, 1, 2 -/
def tigerPerform (t : Tiger) (action : Int) : Tiger :=
  let t := { t with steps := t.steps + 1 }
  if action ≠ 0 then
    if (action = 1 ∧ t.tigerLeft = true) ∨ (action = 2 ∧ ¬ t.tigerLeft = true) then { t with done := true, nextReward := -100 }
    else { t with done := true, nextReward := 10 }
  else t

/-- `TigerTask.getObservation`, tiger.py:42-50: `r` is the value of `random()` -/
noncomputable def tigerObservation (t : Tiger) (r : ℝ) : List Nat :=
  let obs := if t.tigerLeft then [1, 0] else [0, 1]
  if r < 15 / 100 then obs.map (fun o => 1 - o) else obs

/-- `TigerTask.isFinished`, tiger.py:52-53 -/
def tigerFinished (maxSteps : Option Nat) (t : Tiger) : Bool :=
  t.done || (match maxSteps with
    | none => false
    | some n => decide (n ≤ t.steps))

/-- `TigerTask.getReward`, tiger.py:55-56 -/
def tigerReward (t : Tiger) : ℚ := t.nextReward

end Verif.MazeTask
