import Verif.Model.CaptureGame
import Verif.Model.Draw
/-
Model of the players in pybrain/rl/environments/twoplayergames/capturegameplayers (randomplayer.py, nonsuicide.py, killing.py, moduledecision.py) and
gomokuplayers/moduledecision.py, and of CaptureGame.getBoardArray, getAcceptable, getKilling and playToTheEnd.

`choice` from a list of length `n` takes the element with index `ch n`.
-/
namespace Verif.Players
open Verif.DataSet (Err)
open Verif.Capture

/-- `random.choice`: an IndexError for an empty list -/
def choice {α : Type} (ch : Nat → Nat) (l : List α) : Except Err α :=
  match l[ch l.length]? with
  | some a => .ok a
  | none => .error .indexError

/-- `[p for p in l if f(p)]`, where `f` can raise exceptions -/
def filterE {α : Type} (f : α → Except Err Bool) : List α → Except Err (List α)
  | [] => .ok []
  | a :: l =>
    match f a with
    | .error e => .error e
    | .ok r => (filterE f l).map fun l' => if r then a :: l' else l'

/-- `getAcceptable`, capturegame.py:207-209 -/
def getAcceptable (g : Game) (c : Color) : Except Err (List Pos) := filterE (fun p => (suicide g c p).map (!·)) (getLegals g)

/-- `getKilling`, capturegame.py:211-213 -/
def getKilling (g : Game) (c : Color) : Except Err (List Pos) := (getAcceptable g c).bind (filterE (capture g c))

/-- `RandomCapturePlayer.getAction`, randomplayer.py:11-12 (the position of the action; the colour is the player's) -/
def randomPlayer (ch : Nat → Nat) (g : Game) : Except Err Pos := choice ch (getLegals g)

/-- `NonSuicidePlayer.getAction`, nonsuicide.py:10-15 -/
def nonSuicidePlayer (ch : Nat → Nat) (g : Game) (c : Color) : Except Err Pos :=
  (getAcceptable g c).bind fun p => if 0 < p.length then choice ch p else randomPlayer ch g

/-- `KillingPlayer.getAction`, killing.py:11-16 -/
def killingPlayer (ch : Nat → Nat) (g : Game) (c : Color) : Except Err Pos :=
  (getKilling g c).bind fun p => if 0 < p.length then choice ch p else nonSuicidePlayer ch g c

/-- `playToTheEnd`, capturegame.py:254-264, with at most `fuel` moves: in turn `t` the players (functions of the turn and the game) move alternately. -/
def playToTheEnd (p1 p2 : Nat → Game → Except Err Pos) (c1 : Color) : Nat → Nat → Game → Except Err Game
  | 0, _, g => .ok g
  | fuel + 1, t, g =>
    if g.winner.isSome then .ok g
    else
      match if t % 2 = 0 then p1 t g else p2 t g with
      | .error e => .error e
      | .ok pos =>
        match doMove g (if t % 2 = 0 then c1 else c1.opp) (.at pos) with
        | .error e => .error e
        | .ok (g', _) => playToTheEnd p1 p2 c1 fuel (t + 1) g'

/-- `getBoardArray`, capturegame.py:54-63: two entries per position -/
def boardArray (g : Game) : List Nat :=
  (iterPos g.size).flatMap fun p => if g.b p = .white then [1, 0] else if g.b p = .black then [0, 1] else [0, 0]

/-- exchanging the entries with even and odd index, capturegameplayers/moduledecision.py:33-35 -/
def invert : List Nat → List Nat
  | a :: b :: l => b :: a :: invert l
  | l => l

/-- the input of the module, capturegameplayers/moduledecision.py:29-36 -/
def moduleInput (g : Game) (c : Color) : List Nat := if c = .black then boardArray g else invert (boardArray g)

/-- the loop of `_legalizeIt`, moduledecision.py:53-55; `w` is `size` (capture game) or `size[0]` (Go-Moku) -/
def fillVals (w : Nat) (a : List ℝ) : List Pos → List ℝ → Except Err (List ℝ)
  | [], vals => .ok vals
  | p :: ps, vals =>
    if p.1 * w + p.2 < a.length then fillVals w a ps (vals.set (p.1 * w + p.2) (a.getD (p.1 * w + p.2) 0)) else .error .indexError

/-- `_legalizeIt`, moduledecision.py:42-58 (both games). Negative values raise an exception. -/
noncomputable def legalizeIt (ch : Nat → Nat) (r : ℝ) (w : Nat) (legals : List Pos) (a : List ℝ) (temperature : ℝ) : Except Err Pos := by
  classical exact
  if ∃ v ∈ a, v < 0 then .error .valueError
  else
    match fillVals w a legals (List.replicate a.length (-100 * (1 + temperature))) with
    | .error e => .error e
    | .ok vals =>
      match Draw.drawGibbs ch r vals temperature with
      | .error e => .error e
      | .ok i => if (i / w, i % w) ∈ legals then .ok (i / w, i % w) else .error .assertion

end Verif.Players
