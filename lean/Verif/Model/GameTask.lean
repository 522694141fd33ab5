import Verif.Model.CaptureGame
import Verif.Model.Gomoku
import Mathlib.Algebra.Order.Field.Basic
import Mathlib.Algebra.BigOperators.Group.List.Basic
/-
Model of pybrain/rl/environments/twoplayergames/tasks/capturetask.py (CaptureGameTask), gomokutask.py (GomokuTask) and pentetask.py
(PenteTask),
with the parts of episodic.py (EpisodicTask), experiments/episodic.py and capturegame.py:254-264 (playToTheEnd)
they use.

Players are functions from the game to a move (for players with memory or random moves, one function for each game: the states of one
game differ in their move counters). Games are written as records of what the tasks use of them. The attribute `discount` is None (the
default). Numbers are elements of an ordered field. Loops of unknown length carry fuel; `none` means that it was used up.
-/
namespace Verif.GameTask
open Verif.DataSet (Err)
open Verif.Capture (Color)
open Verif.Gomoku (Result)

/-- what a task uses of a TwoPlayerGame, twoplayergame.py:22-50: `reset`, `performAction`, `winner`, `movesDone` -/
structure Env (σ M : Type) where
  reset : Except Err σ
  perform : σ → Color → M → Except Err σ
  winner : σ → Option Result
  moves : σ → Nat

/-- CaptureGame -/
def captureEnv (size : Nat) : Env Capture.Game Capture.Move where
  reset := .ok (Capture.newGame size true)
  perform g c m := (Capture.doMove g c m).map Prod.fst
  winner g := g.winner.map .won
  moves g := g.movesDone

/-- GomokuGame((size, size)) -/
def gomokuEnv (size : Nat) : Env Gomoku.Game Gomoku.Pos where
  reset := Gomoku.newGomoku (size, size)
  perform g c m := (Gomoku.doMove g c m).map Prod.fst
  winner g := g.winner
  moves g := g.movesDone

/-- PenteGame((size, size)), pentetask.py:14 -/
def penteEnv (size : Nat) : Env Gomoku.Game Gomoku.Pos where
  reset := Gomoku.newPente (size, size)
  perform g c m := (Gomoku.penteMove g c m).map Prod.fst
  winner g := g.winner
  moves g := g.movesDone

/-- `playToTheEnd`, capturegame.py:254-264 (the same in gomoku.py:142-152): `c` is the colour to move, `player c` the player of that
colour -/
def playToTheEnd {σ M : Type} (env : Env σ M) (player : Color → σ → M) : Nat → Color → σ → Option (Except Err σ)
  | 0, _, _ => none
  | fuel + 1, c, s =>
    match env.winner s with
    | some _ => some (.ok s)
    | none =>
      match env.perform s c (player c s) with
      | .error e => some (.error e)
      | .ok s' => playToTheEnd env player fuel c.opp s'

variable {σ M K : Type} [Field K] [LinearOrder K]

/-- the parameters, capturetask.py:14-29 and 45-46, gomokutask.py:15-30 and 44-45 -/
structure Cfg (K : Type) where
  alternateStarting : Bool
  winnerReward : K
  numMovesCoeff : K
  minmoves : K
  maxmoves : K

/-- the state of the task: the game, `opponent.color`, `switched`, `cumreward` -/
structure St (σ K : Type) where
  env : σ
  color : Color
  switched : Bool
  cum : K

/-- `isFinished`, capturetask.py:56-62, gomokutask.py:55-61: the answer, and the state it leaves -/
def isFinished (env : Env σ M) (cfg : Cfg K) (s : St σ K) : Bool × St σ K :=
  if (env.winner s.env).isSome then
    if cfg.alternateStarting && !s.switched then (true, { s with color := s.color.opp, switched := true }) else (true, s)
  else (false, s)

/-- `getReward`, capturetask.py:64-78, gomokutask.py:63-79. A CaptureGame has no draws, so the test gomokutask.py:66-67 can stand in
both. -/
def getReward (env : Env σ M) (cfg : Cfg K) (s0 : St σ K) : Except Err (K × St σ K) :=
  let r := isFinished env cfg s0
  let s := r.2
  if r.1 then
    match env.winner s.env with
    | none => .ok (0, s)
    | some .draw => .ok (0, s)
    | some (.won c) =>
      if cfg.maxmoves - cfg.minmoves = 0 then .error .zeroDivision
      else
        let res := cfg.winnerReward - cfg.numMovesCoeff * ((env.moves s.env : K) - cfg.minmoves) / (cfg.maxmoves - cfg.minmoves)
        let res := if c ≠ s.color then res else res * -1
        let res := if cfg.alternateStarting && s.switched then res * -1 else res
        .ok (res, s)
  else .ok (0, s)

/-- `EpisodicTask.performAction`, episodic.py:40-53, with a move of the player of colour `c` -/
def epPerform (env : Env σ M) (cfg : Cfg K) (s : St σ K) (c : Color) (m : M) : Except Err (St σ K) :=
  match env.perform s.env c m with
  | .error e => .error e
  | .ok g =>
    match getReward env cfg { s with env := g } with
    | .error e => .error e
    | .ok (r, s') => .ok { s' with cum := s'.cum + r }

/-- `reset`, capturetask.py:49-54, gomokutask.py:48-53 -/
def reset (env : Env σ M) (cfg : Cfg K) (opp : σ → M) (color : Color) : Except Err (St σ K) :=
  match env.reset with
  | .error e => .error e
  | .ok g =>
    let s : St σ K := { env := g, color := color, switched := false, cum := 0 }
    if color = .black then epPerform env cfg s color (opp g) else .ok s

/-- `performAction`, capturetask.py:80-83, gomokutask.py:81-84: the agent's move, then the opponent's -/
def performAction (env : Env σ M) (cfg : Cfg K) (opp : σ → M) (s : St σ K) (c : Color) (m : M) : Except Err (St σ K) :=
  match epPerform env cfg s c m with
  | .error e => .error e
  | .ok s1 =>
    let r := isFinished env cfg s1
    if !r.1 then epPerform env cfg r.2 r.2.color (opp r.2.env) else .ok r.2

/-- the loop of `doEpisodes`, experiments/episodic.py:38-42 with experiment.py:25-34, for an agent of colour `c` -/
def interactions (env : Env σ M) (cfg : Cfg K) (agent opp : σ → M) (c : Color) : Nat → St σ K → Option (Except Err (St σ K))
  | 0, _ => none
  | fuel + 1, s =>
    let r := isFinished env cfg s
    if r.1 then some (.ok r.2)
    else
      match performAction env cfg opp r.2 c (agent r.2.env) with
      | .error e => some (.error e)
      | .ok s1 =>
        match getReward env cfg s1 with
        | .error e => some (.error e)
        | .ok (_, s2) => interactions env cfg agent opp c fuel s2

/-- one evaluation, capturetask.py:97-98 with episodic.py:59-73 and experiments/episodic.py:33-44 -/
def game (env : Env σ M) (cfg : Cfg K) (agent opp : σ → M) (fuel : Nat) (color : Color) : Option (Except Err (St σ K)) :=
  match reset env cfg opp color with
  | .error e => some (.error e)
  | .ok s => interactions env cfg agent opp color.opp fuel s

/-- the loop of `f`, capturetask.py:96-99, gomokutask.py:97-99; `agent k` and `opp k` are the players' answers in the `k`-th game -/
def games (env : Env σ M) (cfg : Cfg K) (agent opp : Nat → σ → M) (fuel : Nat) : List Nat → Color → K → Option (Except Err (K × Color))
  | [], color, res => some (.ok (res, color))
  | k :: ks, color, res =>
    match game env cfg (agent k) (opp k) fuel color with
    | none => none
    | some (.error e) => some (.error e)
    | some (.ok s) => games env cfg agent opp fuel ks s.color (res + s.cum)

/-- `f`, capturetask.py:85-100, gomokutask.py:86-100, for a player -/
def f (env : Env σ M) (cfg : Cfg K) (agent opp : Nat → σ → M) (fuel averageOverGames : Nat) (color : Color) :
    Option (Except Err (K × Color)) :=
  match games env cfg agent opp fuel (List.range averageOverGames) color 0 with
  | none => none
  | some (.error e) => some (.error e)
  | some (.ok (res, c)) => if (averageOverGames : K) = 0 then some (.error .zeroDivision) else some (.ok (res / averageOverGames, c))

end Verif.GameTask
