import Verif.Model.CaptureGame
import Mathlib.Algebra.Order.Field.Basic
/-
Model of pybrain/rl/environments/twoplayergames/tasks/handicaptask.py (HandicapCaptureTask).

The dictionary `results` is a list of keys and records. How a game with a given handicap goes (`giveHandicap`, `playToTheEnd`, lines
103-106) is an arbitrary function `outcome` of the number of the game and of the handicap: whether the player won, and `movesDone`.
Numbers are elements of an ordered field. The loop is bounded by maxGames, so no fuel is needed.
Then `giveHandicap` of pybrain/rl/environments/twoplayergames/capturegame.py.
-/
namespace Verif.Handicap
open Verif.DataSet (Err)

/-- an entry of `results`, handicaptask.py:89-91: wins, games, moves in won games, moves in lost games -/
structure Rec where
  w : Nat
  t : Nat
  wms : Nat
  lms : Nat
deriving DecidableEq, Repr

abbrev Results := List (Int × Rec)

/-- `self.results[h]` -/
def get (r : Results) (h : Int) : Except Err Rec :=
  match r.lookup h with
  | none => .error .keyError
  | some x => .ok x

/-- `self.results[h] = x` -/
def put (r : Results) (h : Int) (x : Rec) : Results :=
  match r with
  | [] => [(h, x)]
  | (k, y) :: r => if k = h then (k, x) :: r else (k, y) :: put r h x

variable {K : Type} [Field K] [LinearOrder K]

/-- `winProp`, handicaptask.py:37-47 -/
def winProp (K : Type) [Field K] (r : Results) (h : Int) : Except Err K :=
  match get r h with
  | .error e => .error e
  | .ok x =>
    if x.t > 0 then
      let res : K := ((x.w : K) - (x.t : K) / 2) / ((x.t : K) / 2)
      let res := if x.wms > 0 then res + 1 / 10 / ((x.t : K) * (x.wms : K)) else res
      let res := if x.lms > 0 then res - 1 / ((x.t : K) * (x.lms : K)) else res
      .ok res
    else .ok 0

/-- the parameters, handicaptask.py:27-29 and 35 -/
structure Cfg where
  maxGames : Nat
  minEvals : Nat
  maxHandicaps : Int

/-- `goUp`, handicaptask.py:49-53 -/
def goUp (K : Type) [Field K] [LinearOrder K] (cfg : Cfg) (r : Results) (h : Int) : Except Err Bool :=
  match get r h with
  | .error e => .error e
  | .ok x =>
    if x.t ≥ cfg.minEvals then
      match winProp K r h with
      | .error e => .error e
      | .ok p => .ok (decide (p > 3 / 5))
    else .ok false

/-- `goDown`, handicaptask.py:55-59 -/
def goDown (K : Type) [Field K] [LinearOrder K] (cfg : Cfg) (r : Results) (h : Int) : Except Err Bool :=
  match get r h with
  | .error e => .error e
  | .ok x =>
    if x.t ≥ cfg.minEvals then
      match winProp K r h with
      | .error e => .error e
      | .ok p => .ok (decide (p < -(3 / 5)))
    else .ok false

/-- `max(self.results.keys())` -/
def maxKey : Results → Except Err Int
  | [] => .error .valueError
  | (k, _) :: r => .ok (r.foldl (fun m x => if m < x.1 then x.1 else m) k)

/-- `bestHandicap`, handicaptask.py:61-62 -/
def bestHandicap (r : Results) : Except Err Int :=
  match maxKey r with
  | .error e => .error e
  | .ok m => .ok (m - 1)

/-- Python's `and` of two tests that may raise -/
def pyAnd (a : Except Err Bool) (b : Except Err Bool) : Except Err Bool :=
  match a with
  | .error e => .error e
  | .ok false => .ok false
  | .ok true => b

/-- Python's `or` -/
def pyOr (a : Except Err Bool) (b : Except Err Bool) : Except Err Bool :=
  match a with
  | .error e => .error e
  | .ok true => .ok true
  | .ok false => b

def pyNot (a : Except Err Bool) : Except Err Bool :=
  match a with
  | .error e => .error e
  | .ok b => .ok (!b)

/-- `self.results[h][1] >= 2 * self.minEvals` -/
def enough (cfg : Cfg) (r : Results) (h : Int) : Except Err Bool :=
  match get r h with
  | .error e => .error e
  | .ok x => .ok (decide (x.t ≥ 2 * cfg.minEvals))

/-- `fluctuating`, handicaptask.py:64-70 -/
def fluctuating (K : Type) [Field K] [LinearOrder K] (cfg : Cfg) (r : Results) : Except Err Bool :=
  match bestHandicap r with
  | .error e => .error e
  | .ok high =>
    if high > 0 then
      pyAnd (pyAnd (enough cfg r high) (enough cfg r (high - 1))) (pyAnd (goUp K cfg r (high - 1)) (goDown K cfg r high))
    else .ok false

/-- `stable`, handicaptask.py:72-76 -/
def stable (K : Type) [Field K] [LinearOrder K] (cfg : Cfg) (r : Results) (h : Int) : Except Err Bool :=
  pyOr (fluctuating K cfg r)
    (pyOr (pyAnd (enough cfg r h) (pyAnd (pyNot (goUp K cfg r h)) (pyNot (goDown K cfg r h))))
      (pyOr (pyAnd (enough cfg r h) (pyAnd (goUp K cfg r h) (.ok (decide (h ≥ cfg.maxHandicaps)))))
        (pyAnd (enough cfg r h) (pyAnd (goDown K cfg r h) (.ok (decide (h = 0)))))))

/-- `addResult`, handicaptask.py:78-86 -/
def addResult (r : Results) (h : Int) (win : Bool) (moves : Nat) : Except Err Results :=
  let r := if (r.lookup (h + 1)).isSome then r else put r (h + 1) ⟨0, 0, 0, 0⟩
  match get r h with
  | .error e => .error e
  | .ok x =>
    let x := { x with t := x.t + 1 }
    .ok (put r h (if win then { x with w := x.w + 1, wms := x.wms + moves } else { x with lms := x.lms + moves }))

/-- `reset`, handicaptask.py:88-91 -/
def start : Results := [(0, ⟨0, 0, 0, 0⟩)]

/-- the next handicap, handicaptask.py:108-111 -/
def nextLevel (K : Type) [Field K] [LinearOrder K] (cfg : Cfg) (r : Results) (current : Int) : Except Err Int :=
  match pyAnd (goUp K cfg r current) (.ok (decide (current < cfg.maxHandicaps))) with
  | .error e => .error e
  | .ok true => .ok (current + 1)
  | .ok false =>
    match pyAnd (goDown K cfg r current) (.ok (decide (current > 1))) with
    | .error e => .error e
    | .ok true => .ok (current - 1)
    | .ok false => .ok current

/-- the loop, handicaptask.py:101-111, with the number of games left; the result, and the games played as (handicap, won, moves) -/
def loop (K : Type) [Field K] [LinearOrder K] (cfg : Cfg) (outcome : Nat → Int → Bool × Nat) :
    Nat → Nat → Int → Results → List (Int × Bool × Nat) → Except Err (Results × Int × List (Int × Bool × Nat))
  | 0, _, current, r, hist => .ok (r, current, hist)
  | left + 1, games, current, r, hist =>
    match stable K cfg r current with
    | .error e => .error e
    | .ok true => .ok (r, current, hist)
    | .ok false =>
      match addResult r current (outcome games current).1 (outcome games current).2 with
      | .error e => .error e
      | .ok r' =>
        match nextLevel K cfg r' current with
        | .error e => .error e
        | .ok current' => loop K cfg outcome left (games + 1) current' r' (hist ++ [(current, outcome games current)])

/-- the result, handicaptask.py:113-118 -/
def final (K : Type) [Field K] [LinearOrder K] (cfg : Cfg) (r : Results) : Except Err K :=
  match bestHandicap r with
  | .error e => .error e
  | .ok high =>
    match fluctuating K cfg r with
    | .error e => .error e
    | .ok false =>
      match winProp K r high with
      | .error e => .error e
      | .ok p => .ok ((high : K) + p)
    | .ok true =>
      match winProp K r high, winProp K r (high - 1) with
      | .ok p, .ok q => .ok (((high : K) - 1 / 2) + (p + q) / 2)
      | .error e, _ => .error e
      | _, .error e => .error e

/-- `f`, handicaptask.py:93-118: the value and the games played -/
def f (K : Type) [Field K] [LinearOrder K] (cfg : Cfg) (outcome : Nat → Int → Bool × Nat) : Except Err (K × List (Int × Bool × Nat)) :=
  match loop K cfg outcome cfg.maxGames 0 0 start [] with
  | .error e => .error e
  | .ok (r, _, hist) =>
    match final K cfg r with
    | .error e => .error e
    | .ok v => .ok (v, hist)

end Verif.Handicap

namespace Verif.Capture
open Verif.DataSet (Err)

/-- what `_handicapIterator` yields, capturegame.py:238-252 (after its assertion) -/
def handicapPoints (s : Nat) : List Pos :=
  [(1, 1)] ++ (if s > 3 then [(s - 2, s - 2), (1, s - 2), (s - 2, 1)] else []) ++
  (if s > 4 then (List.range' 2 (s - 2 - 2)).flatMap (fun i => [(i, 1), (i, s - 2), (1, i), (s - 2, i)]) else [])

/-- the loop of `giveHandicap`, capturegame.py:231-236; `i` is the counter before the increment -/
def handicapLoop (h : Int) (c : Color) : List Pos → Int → Game → Except Err Game
  | [], _, g => .ok g
  | pos :: ps, i, g =>
    if i + 1 > h then .ok g
    else
      match isLegal g c pos with
      | .error e => .error e
      | .ok false => handicapLoop h c ps (i + 1) g
      | .ok true =>
        match setStone g c pos with
        | .error e => .error e
        | .ok g' => handicapLoop h c ps (i + 1) g'

/-- `giveHandicap`, capturegame.py:229-236; the iterator's assertion (line 240) is checked first -/
def giveHandicap (g : Game) (h : Int) (c : Color) : Except Err Game :=
  if g.size > 2 then handicapLoop h c (handicapPoints g.size) 0 g else .error .assertion

end Verif.Capture
