import Verif.Model.GameTask
import Mathlib.Algebra.Order.Floor.Semiring
/-
Model of pybrain/rl/environments/twoplayergames/tasks/relativetask.py (RelativeCaptureTask) and relativegomokutask.py
(RelativeGomokuTask).

A player is a function from the number of the game (so that random moves may differ from game to game), its noise level (the softmax
`temperature` of a network, or `randomPartMoves`) and the position to a move. The noise level is a part of the state, because for players
that are not built by the task it outlives the call. Numbers are elements of an ordered field with a floor function;
`presetGamesProportion` is at most 1, so that `int` is the floor. Games carry fuel, see Verif/Model/GameTask.lean. Printing is left out.
-/
namespace Verif.Relative
open Verif.DataSet (Err)
open Verif.Capture (Color)
open Verif.Gomoku (Result)
open Verif.GameTask (Env captureEnv gomokuEnv playToTheEnd)

variable {K : Type} [Field K] [LinearOrder K]

/-- the options, relativetask.py:24-37 -/
structure Cfg (K : Type) where
  maxGames : Nat
  proportion : K
  minTemperature : K
  maxTemperature : K
  numMovesCoeff : K

/-- the kinds of players: networks (`useNetworks`), players with the attribute `randomPartMoves`, and others -/
inductive Kind
  | networks | adjustable | fixed
deriving DecidableEq

/-- `_fixedStartingPos`, relativetask.py:119-127 -/
def fixedStartingPos (size : Nat) : List Capture.Pos :=
  if size < 3 then []
  else (List.range' 1 ((size + 1) / 2 - 1)).flatMap (fun x => (List.range' x ((size + 1) / 2 - x)).map (fun y => (x, y)))

/-- `cases`, relativetask.py:44-48 -/
def cases [FloorSemiring K] (cfg : Cfg K) (size : Nat) : Nat :=
  if cfg.proportion > 0 then ⌊((fixedStartingPos size).length : K) / cfg.proportion⌋₊ else 1

/-- `np`, relativetask.py:70 -/
def np [FloorSemiring K] (cfg : Cfg K) (size : Nat) : Nat := ⌊(cases cfg size : K) * (1 - cfg.proportion)⌋₊

/-- the temperature, the players' noise, `score` and `coeffSum` -/
structure St (K : Type) where
  temp : K
  noise : K
  score : K
  sum : K

/-- `_setTemperature`, relativetask.py:105-117, relativegomokutask.py:86-98; `none` means that it returns False -/
def setTemperature (kind : Kind) (temp : K) : Option K :=
  match kind with
  | .networks => some temp
  | .adjustable => some (temp / (temp + 1))
  | .fixed => none

/-- `_globalWarming`, relativetask.py:91-103 (factor 1.5), relativegomokutask.py:72-84 (factor 1.2) -/
def globalWarming (factor : K) (cfg : Cfg K) (kind : Kind) (s : St K) : St K :=
  let temp := if s.temp = 0 then 2 / 100 else s.temp * factor
  if temp > cfg.maxTemperature then { s with temp := temp }
  else
    match setTemperature kind temp with
    | some x => { s with temp := temp, noise := x }
    | none => { s with temp := cfg.minTemperature }

/-- the value of a finished game for black, relativetask.py:138-146, relativegomokutask.py:109-117 -/
def gameValue (cfg : Cfg K) (minmoves maxmoves : K) (winner : Option Result) (moves : Nat) : K :=
  let res := 1 - cfg.numMovesCoeff * ((moves : K) - minmoves) / (maxmoves - minmoves)
  if winner = some (.won .black) then res else -res

/-- the players as given to playToTheEnd: `p1` is black and `p2` white, relativetask.py:62-63 -/
def board {σ M : Type} (p1 p2 : Nat → K → σ → M) (i : Nat) (noise : K) : Color → σ → M
  | .black => p1 i noise
  | .white => p2 i noise

/-- `_oneGame`, relativetask.py:129-146 -/
def oneGame (cfg : Cfg K) (size fuel : Nat) (player : Color → Capture.Game → Capture.Move) (preset : Option Capture.Pos) :
    Option (Except Err K) :=
  let value : Option (Except Err Capture.Game) → Option (Except Err K)
    | none => none
    | some (.error e) => some (.error e)
    | some (.ok t) => some (.ok (gameValue cfg 3 ((size * size : Nat) : K) ((captureEnv size).winner t) t.movesDone))
  match preset with
  | none => value (playToTheEnd (captureEnv size) player fuel .black (Capture.newGame size true))
  | some pos =>
    match Capture.setStone (Capture.newGame size true) .black pos with
    | .error e => some (.error e)
    | .ok g => value (playToTheEnd (captureEnv size) player fuel .white { g with movesDone := g.movesDone + 1 })

/-- what is done in turn `i`: `none` for `continue`, otherwise the factor of the coefficient and the first stone, relativetask.py:72-82 -/
def turn [FloorSemiring K] (cfg : Cfg K) (size : Nat) (i : Nat) : Except Err (Option (K × Option Capture.Pos)) :=
  if cases cfg size > 1 then
    if i % cases cfg size ≥ np cfg size then
      match (fixedStartingPos size)[((i : Int) - np cfg size).emod (cases cfg size) |>.toNat]? with
      | none => .error .indexError
      | some pos => .ok (some (1, some pos))
    else if i < cases cfg size then
      if i = 0 then .ok (some ((np cfg size : K), none)) else .ok none
    else .ok (some (1, none))
  else .ok (some (1, none))

/-- the loop of `__call__`, relativetask.py:71-87, from turn `i` on -/
def loop [FloorSemiring K] (cfg : Cfg K) (size fuel : Nat) (kind : Kind) (p1 p2 : Nat → K → Capture.Game → Capture.Move) :
    Nat → Nat → St K → Option (Except Err (St K))
  | 0, _, s => some (.ok s)
  | left + 1, i, s =>
    match turn cfg size i with
    | .error e => some (.error e)
    | .ok none => loop cfg size fuel kind p1 p2 left (i + 1) s
    | .ok (some (factor, preset)) =>
      let coeff := 1 / (10 * s.temp + 1) * factor
      match oneGame cfg size fuel (board p1 p2 i s.noise) preset with
      | none => none
      | some (.error e) => some (.error e)
      | some (.ok res) =>
        let s := { s with score := s.score + coeff * res, sum := s.sum + coeff }
        if cases cfg size = 1 then loop cfg size fuel kind p1 p2 left (i + 1) (globalWarming (3 / 2) cfg kind s)
        else if cases cfg size = 0 then some (.error .zeroDivision)
        else if i % cases cfg size = 0 ∧ i > 0 then
          loop cfg size fuel kind p1 p2 left (i + 1) (globalWarming (3 / 2) cfg kind s)
        else loop cfg size fuel kind p1 p2 left (i + 1) s

/-- `__call__`, relativetask.py:52-89: the score and the noise the players are left with. Networks get new players. -/
def call [FloorSemiring K] (cfg : Cfg K) (size fuel : Nat) (kind : Kind) (noise : K) (p1 p2 : Nat → K → Capture.Game → Capture.Move) :
    Option (Except Err (K × K)) :=
  match loop cfg size fuel kind p1 p2 cfg.maxGames 0
      { temp := cfg.minTemperature, noise := if kind = .networks then cfg.minTemperature else noise, score := 0, sum := 0 } with
  | none => none
  | some (.error e) => some (.error e)
  | some (.ok s) => if s.sum = 0 then some (.error .zeroDivision) else some (.ok (s.score / s.sum, s.noise))

/-- RelativeGomokuTask: the loop of `__call__`, relativegomokutask.py:63-68 (`_oneGame` is always called without a preset stone) -/
def gomokuLoop (cfg : Cfg K) (size fuel : Nat) (kind : Kind) (p1 p2 : Nat → K → Gomoku.Game → Gomoku.Pos) :
    Nat → Nat → St K → Option (Except Err (St K))
  | 0, _, s => some (.ok s)
  | left + 1, i, s =>
    match (gomokuEnv size).reset with
    | .error e => some (.error e)
    | .ok g =>
      match playToTheEnd (gomokuEnv size) (board p1 p2 i s.noise) fuel .black g with
      | none => none
      | some (.error e) => some (.error e)
      | some (.ok t) =>
        let coeff := 1 / (10 * s.temp + 1)
        let res := gameValue cfg 9 ((size * size : Nat) : K) ((gomokuEnv size).winner t) t.movesDone
        let s := { s with score := s.score + coeff * res, sum := s.sum + coeff }
        gomokuLoop cfg size fuel kind p1 p2 left (i + 1) (if i > 0 then globalWarming (6 / 5) cfg kind s else s)

/-- RelativeGomokuTask: `__call__`, relativegomokutask.py:45-70 -/
def gomokuCall (cfg : Cfg K) (size fuel : Nat) (kind : Kind) (noise : K) (p1 p2 : Nat → K → Gomoku.Game → Gomoku.Pos) :
    Option (Except Err (K × K)) :=
  match gomokuLoop cfg size fuel kind p1 p2 cfg.maxGames 0
      { temp := cfg.minTemperature, noise := if kind = .networks then cfg.minTemperature else noise, score := 0, sum := 0 } with
  | none => none
  | some (.error e) => some (.error e)
  | some (.ok s) => if s.sum = 0 then some (.error .zeroDivision) else some (.ok (s.score / s.sum, s.noise))

end Verif.Relative
